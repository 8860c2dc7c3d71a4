import Verif.Model.Identity
import Verif.Spec.Identity
namespace Esl.Identity
open Spec

theorem eq_iff (a b : Ident) : eq a b = true ↔ a = b := by
  induction a generalizing b with
  | nil => cases b <;> simp [eq]
  | cons x xs ih => cases b with
    | nil => simp [eq]
    | cons y ys => simp [eq, ih]

theorem lexCompare_iff (a b : Ident) : lexCompare a b = true ↔ Before a b := by
  induction a generalizing b with
  | nil => cases b with
    | nil => simp [lexCompare, Before]
    | cons y ys => simp [lexCompare, Before]
  | cons x xs ih => cases b with
    | nil => simp [lexCompare, Before]
    | cons y ys =>
      unfold lexCompare
      by_cases h1 : x < y
      · simp only [h1, if_true, true_iff]
        exact Or.inr ⟨[], x, xs, y, ys, rfl, rfl, h1⟩
      · by_cases h2 : y < x
        · simp only [h1, h2, if_true, if_false]
          simp only [Bool.false_eq_true, false_iff]
          rintro (⟨z, t, h⟩ | ⟨p, u, s, v, t, ha, hb, huv⟩)
          · simp at h; omega
          · cases p with
            | nil => simp at ha hb; omega
            | cons q qs => simp at ha hb; omega
        · have hxy : x = y := by omega
          subst hxy
          simp only [h1, if_false, ih]
          constructor
          · rintro (⟨z, t, h⟩ | ⟨p, u, s, v, t, ha, hb, huv⟩)
            · exact Or.inl ⟨z, t, by simp [h]⟩
            · exact Or.inr ⟨x :: p, u, s, v, t, by simp [ha], by simp [hb], huv⟩
          · rintro (⟨z, t, h⟩ | ⟨p, u, s, v, t, ha, hb, huv⟩)
            · simp at h; exact Or.inl ⟨z, t, h⟩
            · cases p with
              | nil => simp at ha hb; omega
              | cons q qs =>
                simp at ha hb
                exact Or.inr ⟨qs, u, s, v, t, ha.2, hb.2, huv⟩

theorem lexCompare_irrefl (a : Ident) : lexCompare a a = false := by
  induction a with
  | nil => rfl
  | cons x xs ih => simp [lexCompare, ih]

theorem lexCompare_trans (a b c : Ident) : lexCompare a b = true → lexCompare b c = true →
    lexCompare a c = true := by
  induction a generalizing b c with
  | nil => cases b <;> cases c <;> simp [lexCompare]
  | cons x xs ih => cases b with
    | nil => simp [lexCompare]
    | cons y ys => cases c with
      | nil => simp [lexCompare]
      | cons z zs =>
        simp only [lexCompare]
        intro h1 h2
        rcases Nat.lt_trichotomy x y with h | h | h
        · have hz : x < z := by
            rcases Nat.lt_trichotomy y z with g | g | g
            · omega
            · omega
            · rw [if_neg (by omega), if_pos g] at h2; exact absurd h2 (by decide)
          rw [if_pos hz]
        · subst h
          rw [if_neg (by omega), if_neg (by omega)] at h1
          rcases Nat.lt_trichotomy x z with g | g | g
          · rw [if_pos g]
          · subst g
            rw [if_neg (by omega), if_neg (by omega)] at h2
            rw [if_neg (by omega), if_neg (by omega)]
            exact ih _ _ h1 h2
          · rw [if_neg (by omega), if_pos g] at h2; exact absurd h2 (by decide)
        · rw [if_neg (by omega), if_pos h] at h1; exact absurd h1 (by decide)

theorem lexCompare_total (a b : Ident) : lexCompare a b = true ∨ a = b ∨ lexCompare b a = true := by
  induction a generalizing b with
  | nil => cases b <;> simp [lexCompare]
  | cons x xs ih => cases b with
    | nil => simp [lexCompare]
    | cons y ys =>
      simp only [lexCompare]
      by_cases hxy : x < y
      · simp [hxy]
      · by_cases hyx : y < x
        · simp [hyx]
        · have e : x = y := by omega
          subst e
          simp
          exact ih ys

/-! Rendering -/

theorem renderDigit_isDigit (w d : Nat) (c : Char) (hc : c ∈ renderDigit w d) : c.isDigit := by
  unfold renderDigit at hc
  rcases List.mem_append.1 hc with h | h
  · rw [List.eq_of_mem_replicate h]; decide
  · exact Nat.isDigit_of_mem_toDigits (by decide) (by decide) h

theorem ofDigitChars_zeros (n : Nat) (l : List Char) :
    Nat.ofDigitChars 10 (List.replicate n '0' ++ l) 0 = Nat.ofDigitChars 10 l 0 := by
  induction n with
  | zero => simp
  | succ n ih => rw [List.replicate_succ, List.cons_append, Nat.ofDigitChars_cons]; simpa using ih

theorem renderDigit_value (w d : Nat) : Nat.ofDigitChars 10 (renderDigit w d) 0 = d := by
  unfold renderDigit
  rw [ofDigitChars_zeros, Nat.ofDigitChars_ten_toDigits]

/-- Splitting a text at the first character that is not a digit is unique. -/
theorem split_unique (p q s t : List Char) (hp : ∀ c ∈ p, c.isDigit) (hq : ∀ c ∈ q, c.isDigit)
    (hs : ∀ c ∈ s.head?, ¬ c.isDigit) (ht : ∀ c ∈ t.head?, ¬ c.isDigit)
    (h : p ++ s = q ++ t) : p = q ∧ s = t := by
  induction p generalizing q with
  | nil =>
    cases q with
    | nil => exact ⟨rfl, by simpa using h⟩
    | cons c q =>
      exfalso
      simp at h
      subst h
      exact hs c (by simp) (hq c (by simp))
  | cons a p ih =>
    cases q with
    | nil =>
      exfalso
      simp at h
      subst h
      exact ht a (by simp) (hp a (by simp))
    | cons c q =>
      simp at h
      obtain ⟨e, h⟩ := h
      have := ih q (fun c hc => hp c (by simp [hc])) (fun c hc => hq c (by simp [hc])) h
      exact ⟨by rw [e, this.1], this.2⟩

theorem rest_head (w : Nat) (ds : List Nat) : ∀ c ∈ (renderRest w ds ++ ['"']).head?, ¬ c.isDigit := by
  cases ds with
  | nil => simp [renderRest]
  | cons d ds => simp [renderRest]

theorem renderRest_inj (v w : Nat) (a b : List Nat)
    (h : renderRest v a ++ ['"'] = renderRest w b ++ ['"']) : a = b := by
  induction a generalizing b with
  | nil => cases b with
    | nil => rfl
    | cons y ys => simp [renderRest] at h
  | cons x xs ih => cases b with
    | nil => simp [renderRest] at h
    | cons y ys =>
      simp only [renderRest, List.cons_append, List.cons.injEq, true_and, List.append_assoc] at h
      have := split_unique _ _ _ _ (renderDigit_isDigit v x) (renderDigit_isDigit w y)
        (rest_head v xs) (rest_head w ys) h
      have hx : x = y := by
        rw [← renderDigit_value v x, ← renderDigit_value w y, this.1]
      rw [hx, ih ys this.2]

/-! Creation histories -/

/-- Invariant of histories that only create. -/
structure Inv (r : Ident) (n : Nat) (w : World) : Prop where
  ids : w.entities.map (·.identifier) = w.issued
  nodup : w.issued.Nodup
  root : ∀ x ∈ w.issued, ∃ s, x = r ++ s
  closed : ∀ p k, p ++ [k] ∈ w.issued → p ++ [k] = r ∨ p ∈ w.issued
  counter : ∀ e ∈ w.entities, ∀ k, e.identifier ++ [k] ∈ w.issued → e.identifier ++ [k] ≠ r → k < e.children
  small : ∀ e ∈ w.entities, e.children ≤ n

theorem Inv.init (r : Ident) : Inv r 0 (World.init r) := by
  constructor
  · simp [World.init, Entity.fresh]
  · simp [World.init]
  · intro x hx; exact ⟨[], by simpa [World.init] using hx⟩
  · intro p k h; left; simpa [World.init] using h
  · intro e he k h1 h2; simp [World.init] at h1; exact absurd h1 h2
  · intro e he; simp [World.init, Entity.fresh] at he; simp [he]

theorem Inv.create {r : Ident} {n : Nat} {w : World} (h : Inv r n w) (hn : n + 1 < 2 ^ 64) (i : Nat) :
    Inv r (n + 1) (w.step (.create i)) := by
  unfold World.step
  cases hi : w.entities[i]? with
  | none =>
    simp only [hi]
    exact ⟨h.ids, h.nodup, h.root, h.closed, h.counter, fun e he => Nat.le_succ_of_le (h.small e he)⟩
  | some e =>
    simp only [hi, Entity.create]
    have hmem : e ∈ w.entities := List.mem_of_getElem? hi
    have heid : e.identifier ∈ w.issued := by rw [← h.ids]; exact List.mem_map_of_mem hmem
    have hlt : e.children + 1 < 2 ^ 64 := by have := h.small e hmem; omega
    have hmod : (e.children + 1) % 2 ^ 64 = e.children + 1 := Nat.mod_eq_of_lt hlt
    obtain ⟨sfx, hsfx⟩ := h.root _ heid
    have hnotroot : e.identifier ++ [e.children] ≠ r := by
      intro hc
      have := congrArg List.length hc
      rw [hsfx] at this
      simp at this
    have hnew : e.identifier ++ [e.children] ∉ w.issued := by
      intro hc
      exact absurd (h.counter e hmem _ hc hnotroot) (Nat.lt_irrefl _)
    have hmapset : (w.entities.set i { e with children := (e.children + 1) % 2 ^ 64 }).map (·.identifier)
        = w.entities.map (·.identifier) := by
      rw [List.map_set]
      apply List.ext_getElem?
      intro j
      rw [List.getElem?_set]
      split
      · rename_i hij
        subst hij
        simp only [List.length_map, List.getElem?_map, hi, Option.map_some]
        split
        · rfl
        · rename_i hh
          have := (List.getElem?_eq_some_iff.1 hi).1
          exact absurd this hh
      · rfl
    constructor
    · simp only [List.map_append, hmapset, h.ids, List.map_cons, List.map_nil, Entity.fresh]
    · rw [List.nodup_append]
      refine ⟨h.nodup, by simp, ?_⟩
      intro a ha b hb
      simp at hb
      subst hb
      intro hab
      exact hnew (hab ▸ ha)
    · intro x hx
      rcases List.mem_append.1 hx with hx | hx
      · exact h.root x hx
      · simp at hx
        exact ⟨sfx ++ [e.children], by rw [hx, hsfx]; simp⟩
    · intro p k hp
      rcases List.mem_append.1 hp with hp | hp
      · rcases h.closed p k hp with hh | hh
        · exact Or.inl hh
        · exact Or.inr (List.mem_append_left _ hh)
      · simp only [List.mem_singleton] at hp
        have := List.append_inj' hp rfl
        exact Or.inr (List.mem_append_left _ (this.1 ▸ heid))
    · intro f hf k hk hkr
      rcases List.mem_append.1 hf with hf | hf
      · -- an old entity, possibly the creator
        obtain ⟨j, hj⟩ := List.getElem?_of_mem hf
        rw [List.getElem?_set] at hj
        split at hj
        · split at hj
          · simp at hj
            subst hj
            rename_i hij _
            simp only [hmod]
            rcases List.mem_append.1 hk with hk | hk
            · exact Nat.lt_succ_of_lt (h.counter e hmem k hk hkr)
            · simp only [List.mem_singleton] at hk
              have := List.append_inj' hk rfl
              simp at this
              simp [this]
          · simp at hj
        · rename_i hij
          rcases List.mem_append.1 hk with hk | hk
          · exact h.counter f (List.mem_of_getElem? hj) k hk hkr
          · exfalso
            simp only [List.mem_singleton] at hk
            have hid : f.identifier = e.identifier := (List.append_inj' hk rfl).1
            have hnd := h.nodup
            rw [← h.ids] at hnd
            have hil := (List.getElem?_eq_some_iff.1 hi).1
            apply hij
            have hjl := (List.getElem?_eq_some_iff.1 hj).1
            have e1 : (w.entities.map (·.identifier))[i]? = (w.entities.map (·.identifier))[j]? := by
              simp [List.getElem?_map, hi, hj, hid]
            exact (List.getElem?_inj (by simpa using hil) hnd).1 e1
      · simp only [List.mem_singleton, Entity.fresh] at hf
        subst hf
        exfalso
        simp only at hk
        rcases List.mem_append.1 hk with hk | hk
        · rcases h.closed _ _ hk with hh | hh
          · have := congrArg List.length hh
            rw [hsfx] at this
            simp at this
          · exact hnew hh
        · simp at hk
    · intro f hf
      rcases List.mem_append.1 hf with hf | hf
      · rcases List.mem_or_eq_of_mem_set hf with hf | hf
        · exact Nat.le_succ_of_le (h.small f hf)
        · subst hf
          simp only [hmod]
          have := h.small e hmem
          omega
      · simp [Entity.fresh] at hf
        subst hf
        simp

end Esl.Identity
