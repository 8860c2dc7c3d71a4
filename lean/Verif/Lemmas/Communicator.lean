import Verif.Model.Communicator
/-! Helper lemmas for the communicator. -/
namespace Esl.Comm

variable {κ α : Type}

theorem mmInsert_perm (le : κ → κ → Bool) (k : κ) (a : α) (l : List (κ × α)) :
    (mmInsert le k a l).Perm ((k, a) :: l) := by
  induction l with
  | nil => exact List.Perm.refl _
  | cons e l ih =>
    obtain ⟨k', a'⟩ := e
    unfold mmInsert
    split
    · exact (ih.cons _).trans (List.Perm.swap _ _ _)
    · exact List.Perm.refl _

theorem mmInsert_sorted (le : κ → κ → Bool) (tot : ∀ a b, le a b = true ∨ le b a = true)
    (tr : ∀ a b c, le a b = true → le b c = true → le a c = true)
    (k : κ) (a : α) (l : List (κ × α)) (h : l.Pairwise fun x y => le x.1 y.1 = true) :
    (mmInsert le k a l).Pairwise fun x y => le x.1 y.1 = true := by
  induction l with
  | nil => simp [mmInsert]
  | cons e l ih =>
    obtain ⟨k', a'⟩ := e
    rw [List.pairwise_cons] at h
    unfold mmInsert
    split
    · rename_i hk
      rw [List.pairwise_cons]
      refine ⟨?_, ih h.2⟩
      intro x hx
      rcases List.mem_cons.1 ((mmInsert_perm le k a l).mem_iff.1 hx) with rfl | hx
      · exact hk
      · exact h.1 x hx
    · rename_i hk
      have hk2 : le k k' = true := (tot k k').resolve_right hk
      rw [List.pairwise_cons]
      refine ⟨?_, List.pairwise_cons.2 h⟩
      intro x hx
      rcases List.mem_cons.1 hx with rfl | hx
      · exact hk2
      · exact tr _ _ _ hk2 (h.1 x hx)

abbrev leInt : Int → Int → Bool := fun a b => decide (a ≤ b)

theorem mmInsert_sorted_int (k : Int) (a : α) (l : List (Int × α))
    (h : l.Pairwise fun x y => x.1 ≤ y.1) :
    (mmInsert leInt k a l).Pairwise fun x y => x.1 ≤ y.1 := by
  have := mmInsert_sorted leInt (by intro a b; simp; omega) (by intro a b c; simp; omega) k a l
    (by simpa using h)
  simpa using this

abbrev leNat : Nat → Nat → Bool := fun a b => decide (a ≤ b)

theorem mmInsert_sorted_nat (k : Nat) (a : α) (l : List (Nat × α))
    (h : l.Pairwise fun x y => x.1 ≤ y.1) :
    (mmInsert leNat k a l).Pairwise fun x y => x.1 ≤ y.1 := by
  have := mmInsert_sorted leNat (by intro a b; simp; omega) (by intro a b c; simp; omega) k a l
    (by simpa using h)
  simpa using this

variable {σ : Type}

/-- The messages that are due and have callbacks. -/
def dueList (hs : Nat → Handlers σ) (now : Nat) (inbox : Inbox) : List (Int × Msg) :=
  ((inbox.takeWhile fun e => decide (e.1 ≤ now)).filter fun e => !(hs e.2.type).isEmpty).map
    fun e => (highest (hs e.2.type), e.2)

theorem collect_perm (hs : Nat → Handlers σ) (now : Nat) (inbox : Inbox) (acc : List (Int × Msg)) :
    (collect hs now inbox acc).Perm (acc ++ dueList hs now inbox) := by
  induction inbox generalizing acc with
  | nil => simp [collect, dueList]
  | cons e l ih =>
    obtain ⟨k, m⟩ := e
    unfold collect
    split
    · rename_i h
      simp [dueList, Nat.not_le.2 h]
    · rename_i h
      have h2 : k ≤ now := by omega
      split
      · rename_i h3
        refine (ih acc).trans ?_
        simp [dueList, h2, h3]
      · rename_i h3
        refine (ih _).trans ?_
        have : dueList hs now ((k, m) :: l) = (highest (hs m.type), m) :: dueList hs now l := by
          simp [dueList, h2, h3]
        rw [this]
        refine ((mmInsert_perm _ _ _ _).append_right _).trans ?_
        simpa using List.perm_middle.symm

theorem collect_sorted (hs : Nat → Handlers σ) (now : Nat) (inbox : Inbox) (acc : List (Int × Msg))
    (h : acc.Pairwise fun x y => x.1 ≤ y.1) :
    (collect hs now inbox acc).Pairwise fun x y => x.1 ≤ y.1 := by
  induction inbox generalizing acc with
  | nil => exact h
  | cons e l ih =>
    obtain ⟨k, m⟩ := e
    unfold collect
    split
    · exact h
    · split
      · exact ih acc h
      · exact ih _ (mmInsert_sorted_int _ _ _ h)

theorem takeEqual_append (p : Int) (l : List (Int × Msg)) :
    l = (takeEqual p l).1.map (fun m => (p, m)) ++ (takeEqual p l).2 := by
  induction l with
  | nil => simp [takeEqual]
  | cons e l ih =>
    obtain ⟨q, m⟩ := e
    unfold takeEqual
    split
    · rename_i h; subst h; simpa using ih
    · simp

theorem order_perm (shuffle : List Msg → List Msg) (hsh : ∀ l, (shuffle l).Perm l) (rs : List (Int × Msg)) :
    (order shuffle rs).Perm (rs.map (·.2)) := by
  induction rs using order_induct with
  | nil => simp [order_nil]
  | cons p m rs ih =>
    rw [order_cons]
    have e := congrArg (List.map (·.2)) (takeEqual_append p rs)
    simp [Function.comp_def] at e
    rw [List.map_cons]
    rw [e]
    have := (hsh (m :: (takeEqual p rs).1)).append ih
    simpa using this

theorem order_sorted (shuffle : List Msg → List Msg) (hsh : ∀ l, (shuffle l).Perm l)
    (pr : Msg → Int) (rs : List (Int × Msg)) (hp : ∀ e ∈ rs, e.1 = pr e.2)
    (hs : rs.Pairwise fun x y => y.1 ≤ x.1) :
    (order shuffle rs).Pairwise fun x y => pr y ≤ pr x := by
  induction rs using order_induct with
  | nil => simp [order_nil]
  | cons p m rs ih =>
    rw [order_cons]
    have e := takeEqual_append p rs
    rw [List.pairwise_cons] at hs
    have hp' : ∀ e ∈ rs, e.1 = pr e.2 := fun e he => hp e (List.mem_cons_of_mem _ he)
    have hgrp : ∀ x ∈ shuffle (m :: (takeEqual p rs).1), pr x = p := by
      intro x hx
      rcases List.mem_cons.1 ((hsh _).mem_iff.1 hx) with rfl | hx
      · exact (hp (p, x) (List.mem_cons_self ..)).symm
      · exact (hp' (p, x) (by rw [e]; simp [hx])).symm
    have hrest : ∀ y ∈ (takeEqual p rs).2, y ∈ rs := fun y hy => by rw [e]; simp [hy]
    rw [List.pairwise_append]
    refine ⟨?_, ih (fun e he => hp' e (hrest e he)) ?_, ?_⟩
    · rw [List.pairwise_iff_forall_sublist]
      intro a b hab
      rw [hgrp a (hab.subset (by simp)), hgrp b (hab.subset (by simp))]
      exact Int.le_refl _
    · rw [e] at hs
      exact (List.pairwise_append.1 hs.2).2.1
    · intro a ha b hb
      have hb2 := (order_perm shuffle hsh _).mem_iff.1 hb
      obtain ⟨q, hq, rfl⟩ := List.mem_map.1 hb2
      rw [hgrp a ha, ← hp' q (hrest q hq)]
      exact hs.1 q (hrest q hq)

theorem handled_perm (hs : Nat → Handlers σ) (shuffle : List Msg → List Msg)
    (hsh : ∀ l, (shuffle l).Perm l) (now : Nat) (inbox : Inbox) :
    (handled hs shuffle now inbox).Perm ((dueList hs now inbox).map (·.2)) := by
  unfold handled
  refine (order_perm shuffle hsh _).trans ?_
  refine ((List.reverse_perm _).map _).trans ?_
  have := (collect_perm hs now inbox []).map (·.2)
  simpa using this

theorem handled_sorted (hs : Nat → Handlers σ) (shuffle : List Msg → List Msg)
    (hsh : ∀ l, (shuffle l).Perm l) (now : Nat) (inbox : Inbox) :
    (handled hs shuffle now inbox).Pairwise
      fun x y => highest (hs y.type) ≤ highest (hs x.type) := by
  unfold handled
  apply order_sorted shuffle hsh (fun m => highest (hs m.type))
  · intro e he
    have := (collect_perm hs now inbox []).mem_iff.1 (List.mem_reverse.1 he)
    simp [dueList] at this
    obtain ⟨a, b, h, rfl⟩ := this
    rfl
  · rw [List.pairwise_reverse]
    exact collect_sorted hs now inbox [] List.Pairwise.nil

theorem takeWhile_eq_filter_of_sorted (now : Nat) (l : Inbox) (h : l.Pairwise fun x y => x.1 ≤ y.1) :
    (l.takeWhile fun e => decide (e.1 ≤ now)) = l.filter fun e => decide (e.1 ≤ now) := by
  induction l with
  | nil => rfl
  | cons e l ih =>
    rw [List.pairwise_cons] at h
    by_cases he : e.1 ≤ now
    · simp [he, ih h.2]
    · have : ∀ x ∈ l, ¬ x.1 ≤ now := fun x hx hc => he (Nat.le_trans (h.1 x hx) hc)
      simp [he]
      intro a b hab
      have := this _ hab
      simp at this
      omega

theorem highest_spec (hs : Handlers σ) (hr : ∀ e ∈ hs, -128 ≤ e.1) :
    (∀ e ∈ hs, e.1 ≤ highest hs) ∧ (hs ≠ [] → ∃ e ∈ hs, e.1 = highest hs) := by
  have key : ∀ (l : Handlers σ) (i : Int),
      i ≤ l.foldl (fun m e => max m e.1) i ∧
      (∀ e ∈ l, e.1 ≤ l.foldl (fun m e => max m e.1) i) ∧
      (l.foldl (fun m e => max m e.1) i = i ∨ ∃ e ∈ l, e.1 = l.foldl (fun m e => max m e.1) i) := by
    intro l
    induction l with
    | nil => intro i; simp
    | cons x l ih =>
      intro i
      obtain ⟨h1, h2, h3⟩ := ih (max i x.1)
      simp only [List.foldl_cons]
      refine ⟨by omega, ?_, ?_⟩
      · intro e he
        rcases List.mem_cons.1 he with rfl | he
        · omega
        · exact h2 e he
      · rcases h3 with h3 | ⟨e, he, h⟩
        · by_cases hx : i ≤ x.1
          · right; exact ⟨x, List.mem_cons_self .., by rw [h3]; omega⟩
          · left; rw [h3]; omega
        · right; exact ⟨e, List.mem_cons_of_mem _ he, h⟩
  obtain ⟨h1, h2, h3⟩ := key hs (-128)
  refine ⟨h2, ?_⟩
  intro hne
  rcases h3 with h3 | h
  · obtain ⟨e, es, rfl⟩ := List.exists_cons_of_ne_nil hne
    have := h2 e (List.mem_cons_self ..)
    have h4 := hr e (List.mem_cons_self ..)
    exact ⟨e, List.mem_cons_self .., by unfold highest; omega⟩
  · exact h

/-- The calls one message leads to. -/
def callsOf (hs : Nat → Handlers σ) (m : Msg) : List (Msg × Int × Nat) :=
  (hs m.type).reverse.map fun e => (m, e.1, e.2.line)

theorem runCallbacks_calls (step : Step) (m : Msg) (l : Handlers σ) (r : Run σ) (first : Nat) :
    (runCallbacks step m l (r, first)).1.calls = r.calls ++ l.map fun e => (m, e.1, e.2.line) := by
  induction l generalizing r first with
  | nil => simp [runCallbacks]
  | cons e l ih =>
    obtain ⟨p, f⟩ := e
    unfold runCallbacks
    simp only
    rw [ih]
    simp

theorem processAll_calls (hs : Nat → Handlers σ) (step : Step) (ms : List Msg) (r : Run σ) (first : Nat) :
    (processAll hs step ms (r, first)).1.calls = r.calls ++ ms.flatMap (callsOf hs) := by
  induction ms generalizing r first with
  | nil => simp [processAll]
  | cons m ms ih =>
    unfold processAll
    simp only
    rw [ih]
    unfold processMessage
    rw [runCallbacks_calls]
    simp [callsOf]

theorem runCallbacks_first_le (step : Step) (m : Msg) (l : Handlers σ) (r : Run σ) (first : Nat) :
    (runCallbacks step m l (r, first)).2 ≤ first := by
  induction l generalizing r first with
  | nil => simp [runCallbacks]
  | cons e l ih =>
    obtain ⟨p, f⟩ := e
    unfold runCallbacks
    simp only
    exact Nat.le_trans (ih _ _) (Nat.min_le_left _ _)

theorem processAll_first_le (hs : Nat → Handlers σ) (step : Step) (ms : List Msg) (r : Run σ) (first : Nat) :
    (processAll hs step ms (r, first)).2 ≤ first := by
  induction ms generalizing r first with
  | nil => simp [processAll]
  | cons m ms ih =>
    unfold processAll
    simp only
    exact Nat.le_trans (ih _ _) (Nat.min_le_left _ _)

end Esl.Comm

namespace Esl.Comm
variable {σ : Type}

theorem order_id (rs : List (Int × Msg)) : order id rs = rs.map (·.2) := by
  induction rs using order_induct with
  | nil => rfl
  | cons p m rs ih =>
    rw [order_cons]
    have e := congrArg (List.map (·.2)) (takeEqual_append p rs)
    simp [Function.comp_def] at e
    rw [ih, List.map_cons, e]
    simp

theorem mmInsert_filter {α : Type} (k p : Int) (a : α) (l : List (Int × α))
    (h : l.Pairwise fun x y => x.1 ≤ y.1) :
    (mmInsert leInt k a l).filter (fun e => decide (e.1 = p)) =
      l.filter (fun e => decide (e.1 = p)) ++ if k = p then [(k, a)] else [] := by
  induction l with
  | nil => by_cases hk : k = p <;> simp [mmInsert, hk]
  | cons e l ih =>
    obtain ⟨k', a'⟩ := e
    rw [List.pairwise_cons] at h
    unfold mmInsert
    by_cases hkk : k' ≤ k
    · simp only [leInt, hkk, decide_true, if_true]
      rw [List.filter_cons, List.filter_cons, ih h.2]
      split <;> simp
    · simp only [leInt, hkk, decide_false, Bool.false_eq_true, if_false]
      by_cases hk : k = p
      · have : ((k', a') :: l).filter (fun e => decide (e.1 = p)) = [] := by
          rw [List.filter_eq_nil_iff]
          intro x hx
          have : k' ≤ x.1 := by
            rcases List.mem_cons.1 hx with rfl | hx
            · exact Int.le_refl _
            · exact h.1 x hx
          simp; omega
        rw [List.filter_cons, this]
        simp [hk]
      · rw [List.filter_cons]
        simp [hk]

theorem collect_filter (hs : Nat → Handlers σ) (now : Nat) (p : Int) (inbox : Inbox) (acc : List (Int × Msg))
    (h : acc.Pairwise fun x y => x.1 ≤ y.1) :
    (collect hs now inbox acc).filter (fun e => decide (e.1 = p)) =
      acc.filter (fun e => decide (e.1 = p)) ++ (dueList hs now inbox).filter (fun e => decide (e.1 = p)) := by
  induction inbox generalizing acc with
  | nil => simp [collect, dueList]
  | cons e l ih =>
    obtain ⟨k, m⟩ := e
    unfold collect
    split
    · rename_i h
      simp [dueList, Nat.not_le.2 h]
    · rename_i h1
      have h2 : k ≤ now := by omega
      split
      · rename_i h3
        rw [ih acc h]
        simp [dueList, h2, h3]
      · rename_i h3
        rw [ih _ (mmInsert_sorted_int _ _ _ h), mmInsert_filter _ _ _ _ h]
        have : dueList hs now ((k, m) :: l) = (highest (hs m.type), m) :: dueList hs now l := by
          simp [dueList, h2, h3]
        rw [this, List.filter_cons]
        by_cases hp : highest (hs m.type) = p <;> simp [hp]

end Esl.Comm
