import Verif.Model.Clearing
import Verif.Props.Walras
/-!
Lemmas about `Model/Clearing.lean`.
-/
namespace Esl.Clearing
open Esl.Walras

theorem demandsOfOrder_spec (fl : Rat → Rat) (den : Nat) (sol : Solution) (p : Nat) (l : List (Nat × Rat)) (r : List (Nat × Nat × Rat))
    (h : demandsOfOrder fl den sol p l = .ok r) :
    List.Forall₂ (fun e d => d.1 = e.1 ∧ d.2.1 = p ∧ unitsOf fl den sol e.1 e.2 = .ok d.2.2) l r := by
  induction l generalizing r with
  | nil => simp only [demandsOfOrder, Outcome.ok.injEq] at h; subst h; exact .nil
  | cons e l ih =>
    obtain ⟨t, x⟩ := e
    simp only [demandsOfOrder, Outcome.bind_eq_ok] at h
    obtain ⟨u, h1, r', h2, h3⟩ := h
    simp only [Outcome.ok.injEq] at h3
    subst h3
    exact .cons ⟨rfl, rfl, h1⟩ (ih r' h2)

/-- The demands of one property, when the units of every demand are known. -/
theorem demandsOfOrder_filter (fl : Rat → Rat) (den : Nat) (sol : Solution) (p t : Nat) (units : Rat → Rat)
    (hu : ∀ e u, unitsOf fl den sol t e = .ok u → u = units e) (l : List (Nat × Rat)) (r : List (Nat × Nat × Rat))
    (h : demandsOfOrder fl den sol p l = .ok r) :
    (r.filter fun d => d.1 = t).map (·.2) = (l.filter fun e => e.1 = t).map fun e => (p, units e.2) := by
  have h1 := demandsOfOrder_spec fl den sol p l r h
  clear h
  induction h1 with
  | nil => rfl
  | cons hx _ ih =>
    rename_i e d l r _
    obtain ⟨h1, h2, h3⟩ := hx
    obtain ⟨d1, d2, d3⟩ := d
    obtain ⟨e1, e2⟩ := e
    simp only at h1 h2 h3
    subst h1; subst h2
    by_cases ht : d1 = t
    · subst ht
      simp [hu _ _ h3, ih]
    · simp [ht, ih]

theorem demandsOf_filter (fl : Rat → Rat) (den : Nat) (sol : Solution) (t : Nat) (units : Rat → Rat)
    (hu : ∀ e u, unitsOf fl den sol t e = .ok u → u = units e) (os : List Order) (r : List (Nat × Nat × Rat))
    (h : demandsOf fl den sol os = .ok r) :
    (r.filter fun d => d.1 = t).map (·.2) = os.flatMap fun o => ((o.excess sol).filter fun e => e.1 = t).map fun e => (o.participant, units e.2) := by
  induction os generalizing r with
  | nil => simp only [demandsOf, Outcome.ok.injEq] at h; subst h; rfl
  | cons o os ih =>
    simp only [demandsOf, Outcome.bind_eq_ok] at h
    obtain ⟨d, h1, r', h2, h3⟩ := h
    simp only [Outcome.ok.injEq] at h3
    subst h3
    rw [List.filter_append, List.map_append, List.flatMap_cons, ih r' h2, demandsOfOrder_filter fl den sol o.participant t units hu _ _ h1]

theorem demandsOf_sol (fl : Rat → Rat) (den : Nat) (sol : Solution) (os : List Order) (r : List (Nat × Nat × Rat))
    (h : demandsOf fl den sol os = .ok r) : ∀ o ∈ os, ∀ e ∈ o.excess sol, ∃ u, unitsOf fl den sol e.1 e.2 = .ok u := by
  induction os generalizing r with
  | nil => simp
  | cons o os ih =>
    simp only [demandsOf, Outcome.bind_eq_ok] at h
    obtain ⟨d, h1, r', h2, h3⟩ := h
    intro o' ho' e he
    rcases List.mem_cons.1 ho' with rfl | ho'
    · have h4 := demandsOfOrder_spec fl den sol _ _ _ h1
      clear h1 h3 ih
      generalize o'.excess sol = l at he h4
      induction h4 with
      | nil => simp at he
      | cons hx _ ih =>
        rcases List.mem_cons.1 he with rfl | he
        · exact ⟨_, hx.2.2⟩
        · exact ih he
    · exact ih r' h2 o' ho' e he

theorem book_eq (ds : List (Nat × Nat × Rat)) (t : Nat) :
    book ds t = if (ds.filter fun d => d.1 = t).map (·.2) = [] then none else some ((ds.filter fun d => d.1 = t).map (·.2)) := by
  unfold book
  cases h : ds.filter fun d => d.1 = t with
  | nil => simp
  | cons x l => simp

theorem find_of_mem {traded : List Quoted} (hn : (traded.map (·.id)).Nodup) {q : Quoted} (hq : q ∈ traded) :
    (traded.find? fun q' => q'.id = q.id) = some q := by
  induction traded with
  | nil => simp at hq
  | cons x l ih =>
    obtain ⟨hx, hl⟩ := List.nodup_cons.1 hn
    rcases List.mem_cons.1 hq with rfl | hq
    · simp
    · have hne : ¬ x.id = q.id := fun he => hx (List.mem_map.2 ⟨q, hq, he.symm⟩)
      rw [List.find?_cons]
      simp only [hne, decide_false]
      exact ih hl hq

/-- The values of the quotes after clearing, one by one. -/
theorem applyResults_forall₂ (fl : Rat → Rat) (result : Nat → Option Rat) (qs rs : List Quoted) (h : applyResults fl result qs = .ok rs) :
    List.Forall₂ (fun q r => r.id = q.id ∧ r.lot = q.lot ∧ ∃ x, result q.id = some x ∧ applyOne fl q.value x = .ok r.value) qs rs := by
  induction qs generalizing rs with
  | nil => simp only [applyResults, Outcome.ok.injEq] at h; subst h; exact .nil
  | cons q qs ih =>
    rw [applyResults] at h
    cases hx : result q.id with
    | none => rw [hx] at h; simp at h
    | some x =>
      rw [hx] at h
      simp only [Outcome.bind_eq_ok] at h
      obtain ⟨v, h1, r, h2, h3⟩ := h
      simp only [Outcome.ok.injEq] at h3
      subst h3
      exact .cons ⟨rfl, rfl, x, hx, h1⟩ (ih r h2)

theorem tradedOf_ids {qs rs : List Quoted} {R : Quoted → Quoted → Prop} (h : List.Forall₂ R qs rs) :
    (tradedOf qs rs).map (·.id) = qs.map (·.id) := by
  unfold tradedOf
  induction h with
  | nil => rfl
  | cons _ _ ih => simp [ih]

theorem forall₂_ids {qs rs : List Quoted} {R : Quoted → Quoted → Prop} (hR : ∀ q r, R q r → r.id = q.id) (h : List.Forall₂ R qs rs) :
    rs.map (·.id) = qs.map (·.id) := by
  induction h with
  | nil => rfl
  | cons hx _ ih => simp [hR _ _ hx, ih]

theorem tradedOf_mem {qs rs : List Quoted} {R : Quoted → Quoted → Prop} (h : List.Forall₂ R qs rs) {q : Quoted} (hq : q ∈ qs) :
    ∃ r ∈ rs, R q r ∧ (⟨q.id, q.value, r.value, q.lot⟩ : Traded) ∈ tradedOf qs rs := by
  unfold tradedOf
  induction h with
  | nil => simp at hq
  | cons hx _ ih =>
    rename_i q' r _ _ _
    rcases List.mem_cons.1 hq with rfl | hq
    · exact ⟨r, by simp, hx, by simp⟩
    · obtain ⟨r', h1, h2, h3⟩ := ih hq
      exact ⟨r', by simp [h1], h2, by simp only [List.zipWith_cons_cons]; exact List.mem_cons_of_mem _ h3⟩

theorem lookup_pair {β : Type} {l : List (Nat × β)} (hn : (l.map (·.1)).Nodup) {e : Nat × β} (he : e ∈ l) : l.lookup e.1 = some e.2 := by
  induction l with
  | nil => simp at he
  | cons x l ih =>
    obtain ⟨hx, hl⟩ := List.nodup_cons.1 hn
    rcases List.mem_cons.1 he with rfl | hel
    · simp [List.lookup]
    · have hne : (e.1 == x.1) = false := by
        rw [beq_eq_false_iff_ne]
        intro h; exact hx (List.mem_map.2 ⟨e, hel, h⟩)
      obtain ⟨x1, x2⟩ := x
      rw [List.lookup]
      simp only at hne
      rw [hne]
      exact ih hl hel

theorem lookup_not_mem {β : Type} {l : List (Nat × β)} {k : Nat} (h : k ∉ l.map (·.1)) : l.lookup k = none := by
  rw [List.lookup_eq_none_iff]
  intro x hx
  simp only [bne_iff_ne, ne_eq]
  rintro rfl
  exact h (List.mem_map.2 ⟨x, hx, rfl⟩)

/-- The transfers of a traded property. -/
theorem transfers_lookup (sort : List (Nat × Int) → List (Nat × Int)) (demands : Nat → Option (List (Nat × Rat))) (qs : List Quoted)
    (hn : (qs.map (·.id)).Nodup) (r : List (Nat × List (Nat × Int))) (h : computeTransfers sort demands qs = .ok r) (t : Nat) :
    (t ∈ qs.map (·.id) → ∀ l, demands t = some l → ∃ x, r.lookup t = some x ∧ transfersOf sort l = .ok x) ∧
    (t ∉ qs.map (·.id) ∨ demands t = none → r.lookup t = none) := by
  obtain ⟨h1, h2⟩ := C56_every_property sort demands qs r h
  have hnr : (r.map (·.1)).Nodup := by rw [h1]; exact hn.filter _
  constructor
  · intro ht l hl
    have : t ∈ r.map (·.1) := by rw [h1, List.mem_filter]; exact ⟨ht, by simp [hl]⟩
    obtain ⟨e, he, rfl⟩ := List.mem_map.1 this
    obtain ⟨l', h3, h4⟩ := h2 e he
    rw [hl] at h3
    cases h3
    exact ⟨e.2, lookup_pair hnr he, h4⟩
  · intro ht
    apply lookup_not_mem
    rw [h1, List.mem_filter]
    rintro ⟨h3, h4⟩
    rcases ht with ht | ht
    · exact ht h3
    · simp [ht] at h4

theorem transfersOf_fits (sort : List (Nat × Int) → List (Nat × Int)) (l : List (Nat × Rat)) (r : List (Nat × Int)) (h : transfersOf sort l = .ok r) :
    ∀ e ∈ r, e.2.natAbs < 2 ^ 64 := by
  unfold transfersOf at h
  rw [Outcome.bind_eq_ok] at h
  obtain ⟨a, -, h2⟩ := h
  by_cases hc : 1 < a.1.length ∧ (a.1.any fun e => e.2 == -2 ^ 63) = true
  · rw [if_pos hc] at h2; cases h2
  · rw [if_neg hc] at h2
    by_cases hf : fits (if a.2 < 0 then spread 1 (sort a.1) a.2.natAbs else spread (-1) (sort a.1) a.2.natAbs) = true
    · rw [if_pos hf] at h2
      cases h2
      intro e he
      have := List.all_eq_true.1 hf e he
      have := of_decide_eq_true this
      omega
    · rw [if_neg hf] at h2; cases h2

/-- Settlement steps without an amount do nothing. -/
theorem fold_zero (money : Nat → Int → Nat → Nat) (supply : Nat → Nat × Nat) (v : Nat → Int) (ts : List Traded) (hv : ∀ t ∈ ts, v t.id = 0)
    (e : Option Bag × Option Bag) : ts.foldl (fun e t => settleEntry money t (supply t.id) (v t.id) e) e = e := by
  induction ts with
  | nil => rfl
  | cons t ts ih =>
    rw [List.foldl_cons]
    have h0 : settleEntry money t (supply t.id) (v t.id) e = e := by
      unfold settleEntry; rw [if_pos (hv t (by simp))]
    rw [h0]
    exact ih fun t ht => hv t (List.mem_cons_of_mem _ ht)

/-- Settlement of a participant that trades one property only. -/
theorem fold_single (money : Nat → Int → Nat → Nat) (supply : Nat → Nat × Nat) (v : Nat → Int) (ts : List Traded) (hn : (ts.map (·.id)).Nodup)
    (t : Traded) (ht : t ∈ ts) (hv : ∀ s ∈ ts, s.id ≠ t.id → v s.id = 0) (e : Option Bag × Option Bag) :
    ts.foldl (fun e t => settleEntry money t (supply t.id) (v t.id) e) e = settleEntry money t (supply t.id) (v t.id) e := by
  induction ts with
  | nil => simp at ht
  | cons s ts ih =>
    obtain ⟨hs, hts⟩ := List.nodup_cons.1 hn
    rw [List.foldl_cons]
    rcases List.mem_cons.1 ht with rfl | ht
    · apply fold_zero
      intro s' hs'
      exact hv s' (List.mem_cons_of_mem _ hs') fun he => hs (List.mem_map.2 ⟨s', hs', he⟩)
    · have hne : s.id ≠ t.id := fun he => hs (List.mem_map.2 ⟨t, ht, he.symm⟩)
      have h0 : settleEntry money s (supply s.id) (v s.id) e = e := by
        unfold settleEntry; rw [if_pos (hv s (by simp) hne)]
      rw [h0]
      exact ih hts ht fun s' hs' => hv s' (List.mem_cons_of_mem _ hs')

/-- Netting does not change the amounts of an item that is only sent or only received. -/
theorem net_disjoint (keys : List Item) (hn : keys.Nodup) (send recv : Option Bag) (k : Item)
    (h : Walras.Spec.amount send k = 0 ∨ Walras.Spec.amount recv k = 0) :
    Walras.Spec.amount (net keys send recv).1 k = Walras.Spec.amount send k ∧
    Walras.Spec.amount (net keys send recv).2 k = Walras.Spec.amount recv k := by
  cases send with
  | none => simp [net]
  | some s =>
    cases recv with
    | none => simp [net]
    | some r =>
      have h1 := foldl_netItem keys hn k (s, r)
      simp only [net, Walras.Spec.amount, Option.bind_some] at h ⊢
      by_cases hm : k ∈ keys
      · rw [if_pos hm] at h1
        obtain ⟨h2, h3⟩ := Prod.mk.inj h1
        rw [h2, h3]
        unfold netItem
        simp only
        cases hrk : r k with
        | none => simp [hrk]
        | some v =>
          by_cases hv : v = 0
          · simp [hv, hrk]
          · cases hsk : s k with
            | none => simp [hv, hsk, hrk]
            | some q =>
              rw [hrk, hsk] at h
              simp only [Option.getD_some, hv, or_false] at h
              subst h
              simp [hv, Nat.pos_of_ne_zero hv]
      · rw [if_neg hm] at h1
        obtain ⟨h2, h3⟩ := Prod.mk.inj h1
        rw [h2, h3]
        exact ⟨rfl, rfl⟩

end Esl.Clearing
