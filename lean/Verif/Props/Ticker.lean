import Verif.Model.Ticker
import Verif.Props.Identity
/-! C107: tickers. -/
namespace Esl.Ticker
open Esl.Identity (Ident)

/-! ## Specification -/

/-- The order of tickers: by what is bought, and then by what is paid with. -/
def Spec.Before (a b : Ticker) : Prop := Identity.Spec.Before a.base b.base ∨ (a.base = b.base ∧ Identity.Spec.Before a.quote b.quote)

/-- A map from tickers to values, changed: the first value stays on `emplace`, an assignment replaces it. -/
def Spec.apply {α : Type} (f : Ticker → Option α) : Change α → Ticker → Option α
  | .emplace k v => fun x => if x = k then some ((f k).getD v) else f x
  | .assign k v => fun x => if x = k then some v else f x
  | .erase k => fun x => if x = k then none else f x

/-! ## The order -/

theorem eq_iff (a b : Ticker) : eq a b = true ↔ a = b := by
  obtain ⟨a1, a2⟩ := a
  obtain ⟨b1, b2⟩ := b
  simp only [eq, Bool.and_eq_true, Identity.eq_iff, Ticker.mk.injEq]

theorem lt_iff (a b : Ticker) : lt a b = true ↔ Spec.Before a b := by
  simp only [lt, Spec.Before, Bool.or_eq_true, Bool.and_eq_true, Identity.eq_iff, Identity.C01_order.1]

/-- **C107.** The comparisons of tickers are those of one order, by base and then by quote; it is strict, transitive and total, and `==` is equality. -/
theorem C107_order :
    (∀ a b, lt a b = true ↔ Spec.Before a b) ∧
    (∀ a b, eq a b = true ↔ a = b) ∧
    (∀ a b, ne a b = true ↔ a ≠ b) ∧
    (∀ a b, le a b = true ↔ (Spec.Before a b ∨ a = b)) ∧
    (∀ a b, gt a b = true ↔ Spec.Before b a) ∧
    (∀ a b, ge a b = true ↔ (Spec.Before b a ∨ a = b)) ∧
    (∀ a, ¬ Spec.Before a a) ∧
    (∀ a b c, Spec.Before a b → Spec.Before b c → Spec.Before a c) ∧
    (∀ a b, Spec.Before a b ∨ a = b ∨ Spec.Before b a) := by
  obtain ⟨_, _, hne, _, hgt, _, irr, tr, tot, _⟩ := Identity.C01_order
  have hg : ∀ a b, gt a b = true ↔ Spec.Before b a := by
    intro a b
    simp only [gt, Spec.Before, Bool.or_eq_true, Bool.and_eq_true, Identity.eq_iff, hgt]
    rw [@eq_comm _ a.base]
  refine ⟨lt_iff, eq_iff, ?_, ?_, hg, ?_, ?_, ?_, ?_⟩
  · intro a b
    obtain ⟨a1, a2⟩ := a
    obtain ⟨b1, b2⟩ := b
    simp only [ne, Bool.or_eq_true, hne, Ne, Ticker.mk.injEq]
    exact ⟨fun h ⟨e1, e2⟩ => h.elim (fun h => h e1) (fun h => h e2), fun h => by
      by_cases e : a1 = b1
      · exact Or.inr fun e2 => h ⟨e, e2⟩
      · exact Or.inl e⟩
  · intro a b
    simp only [le, Bool.or_eq_true, lt_iff, eq_iff]
  · intro a b
    simp only [ge, Bool.or_eq_true, hg, eq_iff]
  · rintro a (h | h)
    · exact irr _ h
    · exact irr _ h.2
  · rintro a b c (h | ⟨h, h2⟩) (k | ⟨k, k2⟩)
    · exact Or.inl (tr _ _ _ h k)
    · exact Or.inl (k ▸ h)
    · exact Or.inl (h ▸ k)
    · exact Or.inr ⟨h.trans k, tr _ _ _ h2 k2⟩
  · rintro ⟨a1, a2⟩ ⟨b1, b2⟩
    rcases tot a1 b1 with h | h | h
    · exact Or.inl (Or.inl h)
    · subst h
      rcases tot a2 b2 with h | h | h
      · exact Or.inl (Or.inr ⟨rfl, h⟩)
      · subst h; exact Or.inr (Or.inl rfl)
      · exact Or.inr (Or.inr (Or.inr ⟨rfl, h⟩))
    · exact Or.inr (Or.inr (Or.inl h))

example : lt ⟨[1], [9]⟩ ⟨[1, 0], [2]⟩ = true ∧ lt ⟨[1], [2]⟩ ⟨[1], [9]⟩ = true ∧ gt ⟨[1], [2]⟩ ⟨[1], [9]⟩ = false := by decide

/-! ## The text -/

theorem slash_not_digit : ¬ ('/').isDigit := by decide

theorem renderRest_no_slash (w : Nat) (ds : List Nat) : '/' ∉ Identity.renderRest w ds := by
  induction ds with
  | nil => simp [Identity.renderRest]
  | cons d ds ih =>
    simp only [Identity.renderRest, List.mem_cons, List.mem_append, not_or]
    exact ⟨by decide, fun h => slash_not_digit (Identity.renderDigit_isDigit w d _ h), ih⟩

theorem render_no_slash (w : Nat) (i : Ident) : '/' ∉ Identity.render w i := by
  cases i with
  | nil => simp [Identity.render]
  | cons d ds =>
    simp only [Identity.render, List.mem_cons, List.mem_append, not_or, List.not_mem_nil, not_false_eq_true, and_true]
    exact ⟨by decide, ⟨fun h => slash_not_digit (Identity.renderDigit_isDigit w d _ h), renderRest_no_slash w ds⟩, by decide⟩

theorem split_first {p q s t : List Char} (hp : '/' ∉ p) (hq : '/' ∉ q) (h : p ++ '/' :: s = q ++ '/' :: t) : p = q ∧ s = t := by
  induction p generalizing q with
  | nil =>
    cases q with
    | nil => simp at h; exact ⟨rfl, h⟩
    | cons y q =>
      simp at h
      exact absurd (by rw [h.1]; simp) hq
  | cons x p ih =>
    cases q with
    | nil =>
      simp at h
      exact absurd (by rw [← h.1]; simp) hp
    | cons y q =>
      simp only [List.cons_append, List.cons.injEq] at h
      have := ih (fun m => hp (List.mem_cons_of_mem _ m)) (fun m => hq (List.mem_cons_of_mem _ m)) h.2
      rw [h.1, this.1, this.2]; exact ⟨rfl, rfl⟩

theorem split_last {p q s t : List Char} (hs : '/' ∉ s) (ht : '/' ∉ t) (h : p ++ '/' :: s = q ++ '/' :: t) : p = q ∧ s = t := by
  have h' := congrArg List.reverse h
  simp only [List.reverse_append, List.reverse_cons, List.append_assoc, List.singleton_append] at h'
  have := split_first (p := s.reverse) (q := t.reverse) (s := p.reverse) (t := q.reverse) (by simpa using hs) (by simpa using ht) (by simpa using h')
  exact ⟨List.reverse_inj.1 this.2, List.reverse_inj.1 this.1⟩

theorem head_ne (w : Nat) (fill : Char) (hf : fill ≠ '"') (s : List Char) : (List.replicate (w - 1) fill ++ '/' :: s).head? ≠ some '"' := by
  cases h : w - 1 with
  | zero => simp
  | succ n => simpa [List.replicate_succ] using hf

/-- **C107.** The text of a ticker determines the ticker, for any width and fill character of the stream (other than the quotation mark). -/
theorem C107_text (v w : Nat) (f g : Char) (hf : f ≠ '"') (hg : g ≠ '"') (a b : Ticker) (h : render v f a = render w g b) : a = b := by
  obtain ⟨a1, a2⟩ := a
  obtain ⟨b1, b2⟩ := b
  cases a1 with
  | nil =>
    cases b1 with
    | nil =>
      have := split_last (render_no_slash 0 a2) (render_no_slash 0 b2) h
      rw [Identity.C04_render_injective 0 0 a2 b2 this.2]
    | cons y ys =>
      refine absurd ?_ (head_ne v f hf (Identity.render 0 a2))
      have h : List.replicate (v - 1) f ++ '/' :: Identity.render 0 a2 = Identity.render w (y :: ys) ++ '/' :: Identity.render 0 b2 := h
      rw [h]; rfl
  | cons x xs =>
    cases b1 with
    | nil =>
      refine absurd ?_ (head_ne w g hg (Identity.render 0 b2))
      have h : Identity.render v (x :: xs) ++ '/' :: Identity.render 0 a2 = List.replicate (w - 1) g ++ '/' :: Identity.render 0 b2 := h
      rw [← h]; rfl
    | cons y ys =>
      have h : Identity.render v (x :: xs) ++ '/' :: Identity.render 0 a2 = Identity.render w (y :: ys) ++ '/' :: Identity.render 0 b2 := h
      have := split_first (render_no_slash v _) (render_no_slash w _) h
      rw [Identity.C04_render_injective v w _ _ this.1, Identity.C04_render_injective 0 0 _ _ this.2]

example : render 0 ' ' ⟨[1, 2], [3]⟩ = ['"', '1', '-', '2', '"', '/', '"', '3', '"'] ∧ render 3 '0' ⟨[], [3]⟩ = ['0', '0', '/', '"', '3', '"'] := by decide

/-! ## Maps -/

def Sorted {α : Type} : List (Ticker × α) → Prop
  | [] => True
  | e :: l => (∀ x ∈ l, Spec.Before e.1 x.1) ∧ Sorted l

theorem before_irrefl (a : Ticker) : ¬ Spec.Before a a := C107_order.2.2.2.2.2.2.1 a
theorem before_trans {a b c : Ticker} : Spec.Before a b → Spec.Before b c → Spec.Before a c := C107_order.2.2.2.2.2.2.2.1 a b c
theorem before_total (a b : Ticker) : Spec.Before a b ∨ a = b ∨ Spec.Before b a := C107_order.2.2.2.2.2.2.2.2 a b

theorem lb_append {α : Type} (k : Ticker) (l : List (Ticker × α)) : (lowerBound k l).1 ++ (lowerBound k l).2 = l := by
  induction l with
  | nil => rfl
  | cons e l ih =>
    simp only [lowerBound]
    split
    · rw [List.cons_append, ih]
    · rfl

theorem lb_before {α : Type} (k : Ticker) (l : List (Ticker × α)) : ∀ x ∈ (lowerBound k l).1, Spec.Before x.1 k := by
  induction l with
  | nil => intro x hx; cases hx
  | cons e l ih =>
    intro x hx
    simp only [lowerBound] at hx
    split at hx
    · rename_i h
      rcases List.mem_cons.1 hx with hx | hx
      · rw [hx]; exact (lt_iff _ _).1 h
      · exact ih x hx
    · cases hx

theorem lb_head {α : Type} (k : Ticker) (l : List (Ticker × α)) : ∀ e r, (lowerBound k l).2 = e :: r → ¬ Spec.Before e.1 k := by
  induction l with
  | nil => intro e r h; cases h
  | cons e l ih =>
    intro e' r h
    simp only [lowerBound] at h
    split at h
    · exact ih e' r h
    · rename_i hn
      injection h with h1 h2
      rw [← h1]
      exact fun hb => hn ((lt_iff _ _).2 hb)

theorem sorted_append {α : Type} (a b : List (Ticker × α)) : Sorted (a ++ b) ↔ Sorted a ∧ Sorted b ∧ ∀ x ∈ a, ∀ y ∈ b, Spec.Before x.1 y.1 := by
  induction a with
  | nil => simp [Sorted]
  | cons e a ih =>
    simp only [List.cons_append, Sorted, ih, List.mem_append]
    constructor
    · rintro ⟨h1, h2, h3, h4⟩
      refine ⟨⟨fun x hx => h1 x (Or.inl hx), h2⟩, h3, ?_⟩
      intro x hx y hy
      rcases List.mem_cons.1 hx with hx | hx
      · rw [hx]; exact h1 y (Or.inr hy)
      · exact h4 x hx y hy
    · rintro ⟨⟨h1, h2⟩, h3, h4⟩
      exact ⟨fun x hx => hx.elim (h1 x) (h4 e List.mem_cons_self x), h2, h3, fun x hx => h4 x (List.mem_cons_of_mem _ hx)⟩

/-- The value of the first entry with the key. -/
def value {α : Type} (l : List (Ticker × α)) (k : Ticker) : Option α := (l.find? fun e => decide (e.1 = k)).map (·.2)

theorem value_append {α : Type} (a b : List (Ticker × α)) (k : Ticker) : value (a ++ b) k = (value a k).or (value b k) := by
  unfold value
  rw [List.find?_append]
  cases a.find? fun e => decide (e.1 = k) <;> rfl

theorem value_cons {α : Type} (e : Ticker × α) (b : List (Ticker × α)) (k : Ticker) : value (e :: b) k = if e.1 = k then some e.2 else value b k := by
  unfold value
  rw [List.find?_cons]
  by_cases h : e.1 = k
  · simp [h]
  · simp [h]

theorem value_none {α : Type} (l : List (Ticker × α)) (k : Ticker) (h : ∀ x ∈ l, x.1 ≠ k) : value l k = none := by
  unfold value
  rw [List.find?_eq_none.2]
  · rfl
  · intro x hx; simpa using h x hx

theorem value_before {α : Type} {l : List (Ticker × α)} {k : Ticker} (h : ∀ x ∈ l, Spec.Before x.1 k) : value l k = none :=
  value_none l k fun x hx e => before_irrefl k (by have := h x hx; rwa [e] at this)

theorem value_after {α : Type} {l : List (Ticker × α)} {k : Ticker} (h : ∀ x ∈ l, Spec.Before k x.1) : value l k = none :=
  value_none l k fun x hx e => before_irrefl k (by have := h x hx; rwa [e] at this)

/-- The three cases of a search in a sorted list. -/
theorem lb_cases {α : Type} (k : Ticker) (l : List (Ticker × α)) (hs : Sorted l) :
    (∃ a b v, l = a ++ (k, v) :: b ∧ lowerBound k l = (a, (k, v) :: b) ∧ (∀ x ∈ a, Spec.Before x.1 k) ∧ ∀ x ∈ b, Spec.Before k x.1) ∨
    (∃ a b, l = a ++ b ∧ lowerBound k l = (a, b) ∧ (∀ x ∈ a, Spec.Before x.1 k) ∧ (∀ x ∈ b, Spec.Before k x.1)) := by
  have e := lb_append k l
  have hb := lb_before k l
  have hh := lb_head k l
  cases hl : lowerBound k l with
  | mk a b =>
    rw [hl] at e hb hh
    cases b with
    | nil => exact Or.inr ⟨a, [], e.symm, rfl, hb, fun x hx => nomatch hx⟩
    | cons f r =>
      have hs' := (sorted_append a (f :: r)).1 (by rw [e]; exact hs)
      have hf := hh f r rfl
      rcases before_total k f.1 with h | h | h
      · refine Or.inr ⟨a, f :: r, e.symm, rfl, hb, ?_⟩
        intro x hx
        rcases List.mem_cons.1 hx with hx | hx
        · rw [hx]; exact h
        · exact before_trans h (hs'.2.1.1 x hx)
      · obtain ⟨k', v⟩ := f
        replace h : k = k' := h
        subst h
        exact Or.inl ⟨a, r, v, e.symm, rfl, hb, hs'.2.1.1⟩
      · exact absurd h hf

theorem find_value {α : Type} (k : Ticker) (l : List (Ticker × α)) (hs : Sorted l) : find k l = value l k := by
  rcases lb_cases k l hs with ⟨a, b, v, e, hl, h1, h2⟩ | ⟨a, b, e, hl, h1, h2⟩
  · have hn : lt k k = false := by
      rw [← Bool.not_eq_true, lt_iff]; exact before_irrefl k
    simp only [find, hl, hn]
    rw [e, value_append, value_before h1, value_cons]
    simp
  · rw [e, value_append, value_before h1, value_after h2, ← e]
    cases b with
    | nil => simp only [find, hl]; rfl
    | cons f r =>
      have hlt : lt k f.1 = true := (lt_iff _ _).2 (h2 f List.mem_cons_self)
      simp only [find, hl, hlt]; rfl

theorem apply_spec {α : Type} (l : List (Ticker × α)) (hs : Sorted l) (c : Change α) : Sorted (apply l c) ∧ ∀ x, value (apply l c) x = Spec.apply (value l) c x := by
  have hirr : ∀ k, lt k k = false := fun k => by rw [← Bool.not_eq_true, lt_iff]; exact before_irrefl k
  have ins : ∀ (k : Ticker) (v : α) (a b : List (Ticker × α)), (∀ x ∈ a, Spec.Before x.1 k) → (∀ x ∈ b, Spec.Before k x.1) → Sorted a → Sorted b → Sorted (a ++ (k, v) :: b) := by
    intro k v a b h1 h2 sa sb
    refine (sorted_append _ _).2 ⟨sa, ⟨h2, sb⟩, ?_⟩
    intro x hx y hy
    rcases List.mem_cons.1 hy with hy | hy
    · rw [hy]; exact h1 x hx
    · exact before_trans (h1 x hx) (h2 y hy)
  have val : ∀ (k : Ticker) (v : α) (a b : List (Ticker × α)), (∀ x ∈ a, Spec.Before x.1 k) → ∀ x, value (a ++ (k, v) :: b) x = if x = k then some v else value (a ++ b) x := by
    intro k v a b h1 x
    rw [value_append, value_cons, value_append]
    by_cases hx : x = k
    · subst hx; rw [value_before h1]; simp
    · rw [if_neg (fun e => hx e.symm), if_neg hx]
  cases c with
  | emplace k v =>
    rcases lb_cases k l hs with ⟨a, b, u, e, hl, h1, h2⟩ | ⟨a, b, e, hl, h1, h2⟩
    · have hf : find k l = some u := by simp only [find, hl, hirr]; rfl
      have hv : value l k = some u := by rw [← find_value k l hs]; exact hf
      have ha : apply l (.emplace k v) = l := by simp only [apply, emplace, hf]
      rw [ha]
      refine ⟨hs, fun x => ?_⟩
      simp only [Spec.apply]
      by_cases hx : x = k
      · rw [if_pos hx, hx, hv]; rfl
      · rw [if_neg hx]
    · have hv : value l k = none := by rw [e, value_append, value_before h1, value_after h2]; rfl
      have hf : find k l = none := by rw [find_value k l hs]; exact hv
      have ha : apply l (.emplace k v) = a ++ (k, v) :: b := by simp only [apply, emplace, hf, hl]
      have hs' := (sorted_append a b).1 (e ▸ hs)
      rw [ha]
      refine ⟨ins k v a b h1 h2 hs'.1 hs'.2.1, fun x => ?_⟩
      rw [val k v a b h1 x]
      simp only [Spec.apply, hv, Option.getD_none]
      rw [← e]
  | assign k v =>
    rcases lb_cases k l hs with ⟨a, b, u, e, hl, h1, h2⟩ | ⟨a, b, e, hl, h1, h2⟩
    · have ha : apply l (.assign k v) = a ++ (k, v) :: b := by simp only [apply, insertOrAssign, hl, hirr]; rfl
      have hs' := (sorted_append a ((k, u) :: b)).1 (e ▸ hs)
      rw [ha]
      refine ⟨ins k v a b h1 h2 hs'.1 hs'.2.1.2, fun x => ?_⟩
      rw [val k v a b h1 x]
      simp only [Spec.apply]
      by_cases hx : x = k
      · rw [if_pos hx, if_pos hx]
      · rw [if_neg hx, if_neg hx, e, val k u a b h1 x, if_neg hx]
    · have ha : apply l (.assign k v) = a ++ (k, v) :: b := by
        cases b with
        | nil => simp only [apply, insertOrAssign, hl]
        | cons f r =>
          have hlt : lt k f.1 = true := (lt_iff _ _).2 (h2 f List.mem_cons_self)
          simp only [apply, insertOrAssign, hl, hlt]; rfl
      have hs' := (sorted_append a b).1 (e ▸ hs)
      rw [ha]
      refine ⟨ins k v a b h1 h2 hs'.1 hs'.2.1, fun x => ?_⟩
      rw [val k v a b h1 x]
      simp only [Spec.apply]
      rw [← e]
  | erase k =>
    rcases lb_cases k l hs with ⟨a, b, u, e, hl, h1, h2⟩ | ⟨a, b, e, hl, h1, h2⟩
    · have ha : apply l (.erase k) = a ++ b := by simp only [apply, erase, hl, hirr]; rfl
      have hs' := (sorted_append a ((k, u) :: b)).1 (e ▸ hs)
      rw [ha]
      refine ⟨(sorted_append a b).2 ⟨hs'.1, hs'.2.1.2, fun x hx y hy => hs'.2.2 x hx y (List.mem_cons_of_mem _ hy)⟩, fun x => ?_⟩
      simp only [Spec.apply]
      by_cases hx : x = k
      · rw [if_pos hx, hx, value_append, value_before h1, value_after h2]; rfl
      · rw [if_neg hx, e, val k u a b h1 x, if_neg hx]
    · have hv : value l k = none := by rw [e, value_append, value_before h1, value_after h2]; rfl
      have ha : apply l (.erase k) = l := by
        cases b with
        | nil => simp only [apply, erase, hl]
        | cons f r =>
          have hlt : lt k f.1 = true := (lt_iff _ _).2 (h2 f List.mem_cons_self)
          simp only [apply, erase, hl, hlt]; rfl
      rw [ha]
      refine ⟨hs, fun x => ?_⟩
      simp only [Spec.apply]
      by_cases hx : x = k
      · rw [if_pos hx, hx, hv]
      · rw [if_neg hx]

/-- **C107.** After every history of changes, a sorted map with tickers as keys finds under every ticker exactly the value that the history leaves there. -/
theorem C107_map {α : Type} (cs : List (Change α)) (k : Ticker) : find k (cs.foldl apply []) = cs.foldl Spec.apply (fun _ => none) k := by
  have key : ∀ (cs : List (Change α)) (l : List (Ticker × α)) (f : Ticker → Option α), Sorted l → (∀ x, value l x = f x) →
      Sorted (cs.foldl apply l) ∧ ∀ x, value (cs.foldl apply l) x = cs.foldl Spec.apply f x := by
    intro cs
    induction cs with
    | nil => intro l f hs h; exact ⟨hs, h⟩
    | cons c cs ih =>
      intro l f hs h
      have hf : value l = f := funext h
      rw [List.foldl_cons, List.foldl_cons]
      exact ih _ _ (apply_spec l hs c).1 (by rw [← hf]; exact (apply_spec l hs c).2)
  obtain ⟨h1, h2⟩ := key cs [] (fun _ => none) trivial fun x => rfl
  rw [find_value _ _ h1, h2]

example : find ⟨[1], [2]⟩ ([.assign ⟨[1], [3]⟩ 7, .emplace ⟨[1], [2]⟩ 8, .emplace ⟨[1], [2]⟩ 9, .erase ⟨[1], [3]⟩].foldl apply ([] : List (Ticker × Nat))) = some 8 := by decide

end Esl.Ticker
