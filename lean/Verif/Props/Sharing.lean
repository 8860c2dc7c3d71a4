import Verif.Model.Sharing
/-!
C143: the lifetime of objects that are shared between Python and C++.
-/
namespace Esl.Sharing

/-! ## Specification -/

/-- The object that a pointer with control block `b` points to: the one it was created with, or the one that the converted pointer points to. -/
inductive Spec.Object (h : Heap) : Nat → Nat → Prop where
  | own (b : Nat) (k : Block) (hk : h.blocks[b]? = some k) (hr : k.kind = .root) : Spec.Object h b b
  | reset (b p r : Nat) (k : Block) (hk : h.blocks[b]? = some k) (hr : k.kind = .resetting p) (hp : Spec.Object h p r) : Spec.Object h b r
  | kept (b p r : Nat) (k : Block) (hk : h.blocks[b]? = some k) (hr : k.kind = .keeping p) (hp : Spec.Object h p r) : Spec.Object h b r

/-- `b` is the control block of a result of `to_std`. -/
def Spec.FromToStd (h : Heap) (b : Nat) : Prop := ∃ k p, h.blocks[b]? = some k ∧ k.kind = .keeping p

/-- `r` is an object that was created. -/
def Spec.Created (h : Heap) (r : Nat) : Prop := ∃ k, h.blocks[r]? = some k ∧ k.kind = .root

/-! ## Invariant -/

/-- The block to which the deleter of a block holds a pointer now. -/
def Block.ref (k : Block) : Option Nat :=
  match k.kind with
  | .root => none
  | .resetting p => if k.strong = 0 then none else some p
  | .keeping p => if k.strong = 0 ∧ k.weak = 0 then none else some p

/-- Number of deleters that hold a pointer to `i`. -/
def refs (l : List Block) (i : Nat) : Nat := l.countP fun k => decide (k.ref = some i)

/-- Counts agree with the variables `held` and `watched` and with the deleters. -/
structure Inv (h : Heap) (held : List Nat) : Prop where
  below : ∀ (i : Nat) (k : Block), h.blocks[i]? = some k → match k.kind with | .root => True | .resetting p => p < i | .keeping p => p < i
  strong : ∀ (i : Nat) (k : Block), h.blocks[i]? = some k → k.strong = held.count i + refs h.blocks i
  weak : ∀ (i : Nat) (k : Block), h.blocks[i]? = some k → k.weak = h.watched.count i
  heldIn : ∀ b ∈ held, b < h.blocks.length
  watchedIn : ∀ b ∈ h.watched, b < h.blocks.length
  deleted : ∀ i, i ∈ h.deleted ↔ ∃ k, h.blocks[i]? = some k ∧ k.kind = .root ∧ k.strong = 0
  nodup : h.deleted.Nodup

theorem refs_set (l : List Block) (b i : Nat) (k k' : Block) (hb : l[b]? = some k) :
    refs (l.set b k') i + (if k.ref = some i then 1 else 0) = refs l i + (if k'.ref = some i then 1 else 0) := by
  unfold refs
  induction l generalizing b with
  | nil => simp at hb
  | cons x l ih =>
    cases b with
    | zero =>
      simp at hb
      subst hb
      simp only [List.set_cons_zero, List.countP_cons, decide_eq_true_eq]
      omega
    | succ b =>
      simp at hb
      have := ih b hb
      simp only [List.set_cons_succ, List.countP_cons]
      omega

theorem refs_append (l : List Block) (k : Block) (i : Nat) : refs (l ++ [k]) i = refs l i + if k.ref = some i then 1 else 0 := by
  unfold refs
  simp [List.countP_append, List.countP_cons]

theorem get_set {α : Type} (l : List α) (b i : Nat) (x y : α) (hb : l[b]? = some y) :
    (l.set b x)[i]? = if i = b then some x else l[i]? := by
  have hlt : b < l.length := (List.getElem?_eq_some_iff.mp hb).1
  rw [List.getElem?_set]
  by_cases h : b = i
  · subst h; simp [hlt]
  · have : ¬ i = b := fun e => h e.symm
    simp [h, this]

theorem get_append {α : Type} (l : List α) (x : α) (i : Nat) : (l ++ [x])[i]? = if i = l.length then some x else l[i]? := by
  by_cases h : i < l.length
  · have : ¬ i = l.length := by omega
    simp [List.getElem?_append, h, this]
  · rw [List.getElem?_append_right (by omega)]
    by_cases e : i = l.length
    · subst e; simp
    · rw [if_neg e]
      have h1 : i - l.length ≠ 0 := by omega
      have h2 : l[i]? = none := List.getElem?_eq_none (by omega)
      rw [h2]
      exact List.getElem?_eq_none (by simp; omega)

/-- The invariant after a block was replaced by one of the same kind. -/
theorem Inv.set {h : Heap} {H H' : List Nat} (inv : Inv h H) (b : Nat) (k k' : Block) (w : List Nat) (d : List Nat) (hb : h.blocks[b]? = some k)
    (hkind : k'.kind = k.kind)
    (hstrong : ∀ i, (if i = b then k'.strong else H.count i + refs h.blocks i) + (if k.ref = some i then 1 else 0)
      = H'.count i + refs h.blocks i + (if k'.ref = some i then 1 else 0))
    (hweak : ∀ i, i < h.blocks.length → (if i = b then k'.weak else h.watched.count i) = w.count i)
    (hH : ∀ x ∈ H', x < h.blocks.length) (hw : ∀ x ∈ w, x < h.blocks.length)
    (hd : ∀ i, i ∈ d ↔ if i = b then k'.kind = .root ∧ k'.strong = 0 else i ∈ h.deleted) (hn : d.Nodup) :
    Inv { blocks := h.blocks.set b k', held := h.held, watched := w, deleted := d } H' := by
  refine ⟨?_, ?_, ?_, ?_, ?_, ?_, hn⟩
  · intro i x hx
    simp only [get_set _ _ _ _ _ hb] at hx
    split at hx
    · rename_i e
      injection hx with hx
      subst hx
      rw [hkind, e]
      exact inv.below b k hb
    · exact inv.below i x hx
  · intro i x hx
    have hr := refs_set h.blocks b i k k' hb
    have hs := hstrong i
    simp only [get_set _ _ _ _ _ hb] at hx
    simp only
    split at hx
    · rename_i e
      injection hx with hx
      subst hx
      simp only [if_pos e] at hs
      omega
    · rename_i e
      simp only [if_neg e] at hs
      have := inv.strong i x hx
      omega
  · intro i x hx
    simp only [get_set _ _ _ _ _ hb] at hx
    simp only
    split at hx
    · rename_i e
      injection hx with hx
      subst hx
      have := hweak i (by rw [e]; exact (List.getElem?_eq_some_iff.mp hb).1)
      simpa only [if_pos e] using this
    · rename_i e
      have := hweak i (List.getElem?_eq_some_iff.mp hx).1
      simp only [if_neg e] at this
      rw [← this]
      exact inv.weak i x hx
  · intro x hx; simpa using hH x hx
  · intro x hx; simpa using hw x hx
  · intro i
    simp only [get_set _ _ _ _ _ hb]
    rw [hd i]
    split
    · simp
    · exact inv.deleted i

/-- Releasing a pointer that is held keeps the invariant for the other pointers, and never fails. -/
theorem release_inv (fuel : Nat) : ∀ (h : Heap) (H : List Nat) (b : Nat), Inv h (b :: H) → b < fuel →
    ∃ h', release fuel h b = .ok h' ∧ Inv h' H ∧ h'.held = h.held ∧ h'.watched = h.watched ∧ h'.blocks.map Block.kind = h.blocks.map Block.kind := by
  induction fuel with
  | zero => intro h H b _ hb; omega
  | succ fuel ih =>
    intro h H b inv hb
    have hlt := inv.heldIn b (by simp)
    obtain ⟨k, hk⟩ : ∃ k, h.blocks[b]? = some k := ⟨_, List.getElem?_eq_getElem hlt⟩
    have hs := inv.strong b k hk
    have hwk := inv.weak b k hk
    have hbel := inv.below b k hk
    rw [List.count_cons_self] at hs
    have hpos : k.strong ≠ 0 := by omega
    have hHin : ∀ x ∈ H, x < h.blocks.length := fun x hx => inv.heldIn x (List.mem_cons_of_mem _ hx)
    have hkinds : ∀ n, (h.blocks.set b { k with strong := n }).map Block.kind = h.blocks.map Block.kind := by
      intro n
      rw [List.map_set]
      have : (h.blocks.map Block.kind)[b]? = some k.kind := by simp [hk]
      apply List.ext_getElem?
      intro i
      rw [get_set _ _ _ _ _ this]
      split
      · rename_i e; rw [e, this]
      · rfl
    have hnotdel : b ∉ h.deleted := by
      rw [inv.deleted b]
      rintro ⟨k2, h2, _, h3⟩
      rw [hk] at h2
      injection h2 with h2
      subst h2
      exact hpos h3
    have hdel0 : ∀ i, i ∈ h.deleted ↔ if i = b then False else i ∈ h.deleted := by
      intro i
      split
      · rename_i e; subst e; simp [hnotdel]
      · rfl
    unfold release
    simp only [hk, if_neg hpos]
    by_cases h1 : k.strong = 1
    · simp only [if_pos h1]
      obtain ⟨kd, st, wk⟩ := k
      simp only at *
      cases kd with
      | root =>
        simp only
        refine ⟨_, rfl, ?_, rfl, rfl, by rw [hkinds]⟩
        refine Inv.set (k' := ⟨.root, st - 1, wk⟩) (H' := H) inv b _ h.watched _ hk (by simp) ?_ ?_ hHin inv.watchedIn ?_ ?_
        · intro i
          simp only [Block.ref, List.count_cons]
          by_cases e : i = b
          · subst e; simp; omega
          · have : ¬ b = i := fun x => e x.symm
            simp [e, this]
        · intro i _
          split
          · rename_i e; subst e; exact hwk
          · rfl
        · intro i
          simp only [List.mem_append, List.mem_singleton, h1]
          split
          · rename_i e; simp [e]
          · rename_i e; simp [e]
        · rw [List.nodup_append]
          exact ⟨inv.nodup, by simp, by intro a ha c hc; simp at hc; subst hc; intro e; subst e; exact hnotdel ha⟩
      | resetting p =>
        simp only at hbel
        simp only
        have hinv' : Inv { h with blocks := h.blocks.set b ⟨.resetting p, st - 1, wk⟩ } (p :: H) := by
          refine Inv.set (k' := ⟨.resetting p, st - 1, wk⟩) (H' := p :: H) inv b _ h.watched h.deleted hk (by simp) ?_ ?_ ?_ inv.watchedIn ?_ inv.nodup
          · intro i
            simp only [Block.ref, List.count_cons, h1]
            by_cases e : i = b
            · subst e
              have : ¬ p = i := by omega
              simp [this]; omega
            · have : ¬ b = i := fun x => e x.symm
              by_cases e2 : p = i
              · subst e2; simp [this, e]
                omega
              · simp [this, e, e2]
          · intro i _
            split
            · rename_i e; subst e; exact hwk
            · rfl
          · intro x hx
            simp only [List.mem_cons] at hx
            rcases hx with hx | hx
            · omega
            · exact hHin x hx
          · intro i
            rw [hdel0 i]
            split
            · simp
            · rename_i e; simp [e]
        obtain ⟨h', e1, e2, e3, e4, e5⟩ := ih _ H p hinv' (by omega)
        exact ⟨h', e1, e2, e3, e4, by rw [e5, hkinds]⟩
      | keeping p =>
        simp only at hbel
        simp only
        by_cases hw0 : wk = 0
        · simp only [if_pos hw0]
          have hinv' : Inv { h with blocks := h.blocks.set b ⟨.keeping p, st - 1, wk⟩ } (p :: H) := by
            refine Inv.set (k' := ⟨.keeping p, st - 1, wk⟩) (H' := p :: H) inv b _ h.watched h.deleted hk (by simp) ?_ ?_ ?_ inv.watchedIn ?_ inv.nodup
            · intro i
              simp only [Block.ref, List.count_cons, h1, hw0]
              by_cases e : i = b
              · subst e
                have : ¬ p = i := by omega
                simp [this]; omega
              · have : ¬ b = i := fun x => e x.symm
                by_cases e2 : p = i
                · subst e2; simp [this, e]
                  omega
                · simp [this, e, e2]
            · intro i _
              split
              · rename_i e; subst e; exact hwk
              · rfl
            · intro x hx
              simp only [List.mem_cons] at hx
              rcases hx with hx | hx
              · omega
              · exact hHin x hx
            · intro i
              rw [hdel0 i]
              split
              · simp
              · rename_i e; simp [e]
          obtain ⟨h', e1, e2, e3, e4, e5⟩ := ih _ H p hinv' (by omega)
          exact ⟨h', e1, e2, e3, e4, by rw [e5, hkinds]⟩
        · simp only [if_neg hw0]
          refine ⟨_, rfl, ?_, rfl, rfl, by rw [hkinds]⟩
          refine Inv.set (k' := ⟨.keeping p, st - 1, wk⟩) (H' := H) inv b _ h.watched h.deleted hk (by simp) ?_ ?_ hHin inv.watchedIn ?_ inv.nodup
          · intro i
            simp only [Block.ref, List.count_cons, h1, hw0]
            by_cases e : i = b
            · subst e
              have : ¬ p = i := by omega
              simp [this]; omega
            · have : ¬ b = i := fun x => e x.symm
              simp [this, e]
          · intro i _
            split
            · rename_i e; subst e; exact hwk
            · rfl
          · intro i
            rw [hdel0 i]
            split
            · simp
            · rename_i e; simp [e]
    · simp only [if_neg h1]
      refine ⟨_, rfl, ?_, rfl, rfl, by rw [hkinds]⟩
      have hne : k.strong - 1 ≠ 0 := by omega
      refine Inv.set (k' := { k with strong := k.strong - 1 }) (H' := H) inv b _ h.watched h.deleted hk (by simp) ?_ ?_ hHin inv.watchedIn ?_ inv.nodup
      · intro i
        have href : ({ k with strong := k.strong - 1 } : Block).ref = k.ref := by
          unfold Block.ref
          cases k.kind <;> simp [hne, hpos]
        rw [href]
        simp only [List.count_cons]
        by_cases e : i = b
        · subst e; simp; omega
        · have : ¬ b = i := fun x => e x.symm
          simp [e, this]
      · intro i _
        split
        · rename_i e; subst e; exact hwk
        · rfl
      · intro i
        rw [hdel0 i]
        split
        · simp; intro _; omega
        · rename_i e; simp [e]

/-- The invariant only looks at the variables through the list that it is given. -/
theorem Inv.setHeld {h : Heap} {H : List Nat} (inv : Inv h H) (l : List Nat) : Inv { h with held := l } H :=
  ⟨inv.below, inv.strong, inv.weak, inv.heldIn, inv.watchedIn, inv.deleted, inv.nodup⟩

theorem Inv.perm {h : Heap} {H H' : List Nat} (inv : Inv h H) (p : H.Perm H') : Inv h H' := by
  refine ⟨inv.below, ?_, inv.weak, ?_, inv.watchedIn, inv.deleted, inv.nodup⟩
  · intro i k hk; rw [inv.strong i k hk, p.count_eq]
  · intro b hb; exact inv.heldIn b (p.mem_iff.mpr hb)

theorem kinds_set (l : List Block) (b : Nat) (k k' : Block) (hb : l[b]? = some k) (hk : k'.kind = k.kind) : (l.set b k').map Block.kind = l.map Block.kind := by
  rw [List.map_set]
  have : (l.map Block.kind)[b]? = some k.kind := by simp [hb]
  apply List.ext_getElem?
  intro i
  rw [get_set _ _ _ _ _ this]
  split
  · rename_i e; rw [e, this, hk]
  · rfl

theorem strong_pos {h : Heap} {H : List Nat} (inv : Inv h H) (b : Nat) (hb : b ∈ H) : ∃ k, h.blocks[b]? = some k ∧ k.strong ≠ 0 := by
  have hlt := inv.heldIn b hb
  refine ⟨_, List.getElem?_eq_getElem hlt, ?_⟩
  have := inv.strong b _ (List.getElem?_eq_getElem hlt)
  have hc : 0 < H.count b := List.count_pos_iff.mpr hb
  omega

theorem acquire_inv {h : Heap} {H : List Nat} (inv : Inv h H) (b : Nat) (k : Block) (hk : h.blocks[b]? = some k) (hs : k.strong ≠ 0) :
    ∃ h', acquire h b = .ok h' ∧ Inv h' (b :: H) ∧ h'.held = h.held ∧ h'.watched = h.watched ∧ h'.deleted = h.deleted ∧ h'.blocks.map Block.kind = h.blocks.map Block.kind := by
  unfold acquire
  simp only [hk]
  refine ⟨_, rfl, ?_, rfl, rfl, rfl, kinds_set _ _ _ _ hk rfl⟩
  have hst := inv.strong b k hk
  have hlt : b < h.blocks.length := (List.getElem?_eq_some_iff.mp hk).1
  refine Inv.set (k' := { k with strong := k.strong + 1 }) (H' := b :: H) inv b k h.watched h.deleted hk rfl ?_ ?_ ?_ inv.watchedIn ?_ inv.nodup
  · intro i
    have href : ({ k with strong := k.strong + 1 } : Block).ref = k.ref := by
      unfold Block.ref
      cases k.kind <;> simp [hs]
    rw [href]
    simp only [List.count_cons]
    by_cases e : i = b
    · subst e; simp; omega
    · have : ¬ b = i := fun x => e x.symm
      simp [e, this]
  · intro i _
    split
    · rename_i e; subst e; exact inv.weak i k hk
    · rfl
  · intro x hx
    simp only [List.mem_cons] at hx
    rcases hx with hx | hx
    · omega
    · exact inv.heldIn x hx
  · intro i
    split
    · rename_i e
      subst e
      rw [inv.deleted i]
      constructor
      · rintro ⟨k2, h2, _, h3⟩
        rw [hk] at h2
        injection h2 with h2
        subst h2
        exact absurd h3 hs
      · rintro ⟨_, h3⟩; simp at h3
    · rfl

/-- The block whose pointer was converted. -/
def Kind.parent : Kind → Option Nat
  | .root => none
  | .resetting p => some p
  | .keeping p => some p

/-- A new control block with one pointer. -/
theorem append_inv {h : Heap} {H H' : List Nat} (inv : Inv h H) (kind : Kind)
    (hb : ∀ p, kind.parent = some p → p < h.blocks.length)
    (hcount : ∀ i, H.count i = H'.count i + if kind.parent = some i then 1 else 0)
    (hmem : ∀ x ∈ H', x ∈ H) (l : List Nat) :
    Inv { h with blocks := h.blocks ++ [⟨kind, 1, 0⟩], held := l } (h.blocks.length :: H') := by
  have hnoH : H.count h.blocks.length = 0 := by
    rw [List.count_eq_zero]
    intro hm
    exact absurd (inv.heldIn _ hm) (by omega)
  have hnoH' : H'.count h.blocks.length = 0 := by
    rw [List.count_eq_zero]
    intro hm
    exact absurd (inv.heldIn _ (hmem _ hm)) (by omega)
  have hnoW : h.watched.count h.blocks.length = 0 := by
    rw [List.count_eq_zero]
    intro hm
    exact absurd (inv.watchedIn _ hm) (by omega)
  have hnoR : refs h.blocks h.blocks.length = 0 := by
    unfold refs
    rw [List.countP_eq_zero]
    intro k hk
    obtain ⟨i, hi⟩ := List.mem_iff_getElem?.mp hk
    have hlt := (List.getElem?_eq_some_iff.mp hi).1
    have := inv.below i k hi
    unfold Block.ref
    cases hkk : k.kind with
    | root => simp
    | resetting p =>
      simp only [hkk] at this
      simp only
      split
      · simp
      · simp; omega
    | keeping p =>
      simp only [hkk] at this
      simp only
      split
      · simp
      · simp; omega
  refine ⟨?_, ?_, ?_, ?_, ?_, ?_, inv.nodup⟩
  · intro i k hk
    simp only [get_append] at hk
    split at hk
    · rename_i e
      injection hk with hk
      subst hk
      rw [e]
      cases kind with
      | root => trivial
      | resetting p => exact hb p rfl
      | keeping p => exact hb p rfl
    · exact inv.below i k hk
  · intro i k hk
    simp only [get_append] at hk
    simp only [refs_append, List.count_cons]
    have hc := hcount i
    have href : (⟨kind, 1, 0⟩ : Block).ref = kind.parent := by
      unfold Block.ref Kind.parent
      cases kind <;> simp
    rw [href]
    split at hk
    · rename_i e
      injection hk with hk
      subst hk
      subst e
      rw [hnoR, hnoH']
      have : ¬ kind.parent = some h.blocks.length := fun e => absurd (hb _ e) (by omega)
      simp [this]
    · rename_i e
      have e' : ¬ h.blocks.length = i := fun x => e x.symm
      have := inv.strong i k hk
      simp only [beq_iff_eq, e', if_false]
      omega
  · intro i k hk
    simp only [get_append] at hk
    split at hk
    · rename_i e
      injection hk with hk
      subst hk
      subst e
      exact hnoW.symm
    · exact inv.weak i k hk
  · intro b hb'
    simp only [List.mem_cons] at hb'
    simp only [List.length_append, List.length_singleton]
    rcases hb' with e | e
    · omega
    · have := inv.heldIn b (hmem b e); omega
  · intro b hb'
    have := inv.watchedIn b hb'
    simp only [List.length_append, List.length_singleton]
    omega
  · intro i
    simp only [get_append]
    rw [inv.deleted i]
    split
    · rename_i e
      subst e
      simp
    · rfl

theorem bridge_inv {h : Heap} (inv : Inv h h.held) (b : Nat) (hb : b ∈ h.held) (kind : Kind) (hkind : kind = .resetting b ∨ kind = .keeping b) :
    ∃ h', bridge h b kind = .ok h' ∧ Inv h' h'.held ∧ h'.held = h.blocks.length :: h.held ∧ h'.watched = h.watched ∧ h'.deleted = h.deleted ∧
      h'.blocks.map Block.kind = h.blocks.map Block.kind ++ [kind] := by
  obtain ⟨k, hk, hs⟩ := strong_pos inv b hb
  obtain ⟨h1, e1, inv1, e2, e3, e4, e5⟩ := acquire_inv inv b k hk hs
  have hlen : h1.blocks.length = h.blocks.length := by
    have := congrArg List.length e5
    simpa using this
  unfold bridge
  rw [e1, Outcome.bind_ok]
  refine ⟨_, rfl, ?_, rfl, e3, e4, by simp [e5]⟩
  rw [← hlen]
  refine append_inv inv1 kind ?_ ?_ ?_ _
  · have := inv.heldIn b hb
    intro p hp
    rcases hkind with e | e <;> subst e <;> simp [Kind.parent] at hp <;> omega
  · intro i
    rcases hkind with e | e <;> subst e <;> simp [List.count_cons, Kind.parent]
  · intro x hx; exact List.mem_cons_of_mem _ hx

/-- Every operation keeps the invariant, and never fails; the kinds of control blocks do not change, except that a new one may be added. -/
theorem step_inv {h : Heap} (inv : Inv h h.held) (o : Op) :
    ∃ h', step h o = .ok h' ∧ Inv h' h'.held ∧ ∃ new, h'.blocks.map Block.kind = h.blocks.map Block.kind ++ new := by
  cases o with
  | create =>
    simp only [step]
    refine ⟨_, rfl, ?_, [.root], by simp⟩
    exact append_inv inv .root (by intro p hp; simp [Kind.parent] at hp) (by intro i; simp [Kind.parent]) (fun x hx => hx) _
  | copy b =>
    simp only [step]
    by_cases hb : b ∈ h.held
    · rw [if_pos hb]
      obtain ⟨k, hk, hs⟩ := strong_pos inv b hb
      obtain ⟨h1, e1, inv1, e2, e3, e4, e5⟩ := acquire_inv inv b k hk hs
      rw [e1, Outcome.bind_ok]
      exact ⟨_, rfl, inv1.setHeld _, [], by simp [e5]⟩
    · rw [if_neg hb]; exact ⟨h, rfl, inv, [], by simp⟩
  | drop b =>
    simp only [step]
    by_cases hb : b ∈ h.held
    · rw [if_pos hb]
      have hlt := inv.heldIn b hb
      have inv1 : Inv { h with held := h.held.erase b } (b :: h.held.erase b) := (inv.perm (List.perm_cons_erase hb)).setHeld _
      obtain ⟨h', e1, e2, e3, _, e5⟩ := release_inv (h.blocks.length + 1) _ _ b inv1 (by omega)
      refine ⟨h', e1, by rw [e3]; exact e2, [], by simp [e5]⟩
    · rw [if_neg hb]; exact ⟨h, rfl, inv, [], by simp⟩
  | toStd b =>
    simp only [step]
    by_cases hb : b ∈ h.held
    · rw [if_pos hb]
      obtain ⟨h', e1, e2, _, _, _, e5⟩ := bridge_inv inv b hb (.keeping b) (Or.inr rfl)
      exact ⟨h', e1, e2, _, e5⟩
    · rw [if_neg hb]; exact ⟨h, rfl, inv, [], by simp⟩
  | toBoost b =>
    simp only [step]
    by_cases hb : b ∈ h.held
    · rw [if_pos hb]
      obtain ⟨h', e1, e2, _, _, _, e5⟩ := bridge_inv inv b hb (.resetting b) (Or.inl rfl)
      exact ⟨h', e1, e2, _, e5⟩
    · rw [if_neg hb]; exact ⟨h, rfl, inv, [], by simp⟩
  | watch b =>
    simp only [step]
    by_cases hb : b ∈ h.held
    · rw [if_pos hb]
      obtain ⟨k, hk, hs⟩ := strong_pos inv b hb
      have hlt := inv.heldIn b hb
      simp only [hk]
      refine ⟨_, rfl, ?_, [], by simpa using kinds_set _ _ _ _ hk rfl⟩
      refine Inv.set (k' := { k with weak := k.weak + 1 }) (H' := h.held) inv b k (b :: h.watched) h.deleted hk rfl ?_ ?_ inv.heldIn ?_ ?_ inv.nodup
      · intro i
        have href : ({ k with weak := k.weak + 1 } : Block).ref = k.ref := by
          unfold Block.ref
          cases k.kind <;> simp [hs]
        rw [href]
        by_cases e : i = b
        · subst e
          have := inv.strong i k hk
          simp; omega
        · simp [e]
      · intro i _
        have := inv.weak b k hk
        simp only [List.count_cons]
        by_cases e : i = b
        · subst e; simp; omega
        · have e' : ¬ b = i := fun x => e x.symm
          simp [e, e']
      · intro x hx
        simp only [List.mem_cons] at hx
        rcases hx with hx | hx
        · omega
        · exact inv.watchedIn x hx
      · intro i
        split
        · rename_i e
          subst e
          rw [inv.deleted i]
          constructor
          · rintro ⟨k2, h2, h4, h3⟩
            rw [hk] at h2
            injection h2 with h2
            subst h2
            exact absurd h3 hs
          · rintro ⟨_, h3⟩; exact absurd h3 hs
        · rfl
    · rw [if_neg hb]; exact ⟨h, rfl, inv, [], by simp⟩
  | unwatch b =>
    simp only [step]
    by_cases hb : b ∈ h.watched
    · rw [if_pos hb]
      have hlt := inv.watchedIn b hb
      obtain ⟨k, hk⟩ : ∃ k, h.blocks[b]? = some k := ⟨_, List.getElem?_eq_getElem hlt⟩
      have hw := inv.weak b k hk
      have hpos : 0 < h.watched.count b := List.count_pos_iff.mpr hb
      have hw0 : k.weak ≠ 0 := by omega
      have hst := inv.strong b k hk
      have hbel := inv.below b k hk
      have hmem : ∀ x ∈ h.watched.erase b, x < h.blocks.length := fun x hx => inv.watchedIn x (List.mem_of_mem_erase hx)
      have hcnt : ∀ i, i < h.blocks.length → (if i = b then k.weak - 1 else h.watched.count i) = (h.watched.erase b).count i := by
        intro i _
        rw [List.count_erase]
        by_cases e : i = b
        · subst e; simp [hw]
        · have e' : ¬ b = i := fun x => e x.symm
          simp [e, e']
      have hdel : ∀ i, i ∈ h.deleted ↔ if i = b then ({ k with weak := k.weak - 1 } : Block).kind = .root ∧ ({ k with weak := k.weak - 1 } : Block).strong = 0 else i ∈ h.deleted := by
        intro i
        split
        · rename_i e
          subst e
          rw [inv.deleted i]
          constructor
          · rintro ⟨k2, h2, h4, h3⟩
            rw [hk] at h2
            injection h2 with h2
            subst h2
            exact ⟨h4, h3⟩
          · rintro ⟨h4, h3⟩; exact ⟨k, hk, h4, h3⟩
        · rfl
      unfold releaseWeak
      simp only [hk, if_neg hw0]
      have same : ({ k with weak := k.weak - 1 } : Block).ref = k.ref →
          Inv { h with blocks := h.blocks.set b { k with weak := k.weak - 1 }, watched := h.watched.erase b } h.held := by
        intro href
        refine Inv.set (k' := { k with weak := k.weak - 1 }) (H' := h.held) inv b k (h.watched.erase b) h.deleted hk rfl ?_ hcnt inv.heldIn hmem hdel inv.nodup
        intro i
        rw [href]
        by_cases e : i = b
        · subst e; simp; omega
        · simp [e]
      cases hkind : k.kind with
      | root =>
        simp only
        refine ⟨_, rfl, ?_, [], by rw [List.append_nil]; exact kinds_set _ _ _ _ hk (by simp [hkind])⟩
        have := same (by unfold Block.ref; simp [hkind])
        rw [hkind] at this
        exact this
      | resetting p =>
        simp only
        refine ⟨_, rfl, ?_, [], by rw [List.append_nil]; exact kinds_set _ _ _ _ hk (by simp [hkind])⟩
        have := same (by unfold Block.ref; simp [hkind])
        rw [hkind] at this
        exact this
      | keeping p =>
        simp only [hkind] at hbel
        simp only
        by_cases hlast : k.weak = 1 ∧ k.strong = 0
        · rw [if_pos hlast]
          have inv1 : Inv { h with blocks := h.blocks.set b { k with weak := k.weak - 1 }, watched := h.watched.erase b } (p :: h.held) := by
            refine Inv.set (k' := { k with weak := k.weak - 1 }) (H' := p :: h.held) inv b k (h.watched.erase b) h.deleted hk rfl ?_ hcnt ?_ hmem hdel inv.nodup
            · intro i
              simp only [Block.ref, hkind, hlast.1, hlast.2, List.count_cons]
              by_cases e : i = b
              · subst e
                have : ¬ p = i := by omega
                simp [this]; omega
              · by_cases e2 : p = i
                · subst e2; simp [e]; omega
                · simp [e, e2]
            · intro x hx
              simp only [List.mem_cons] at hx
              rcases hx with hx | hx
              · omega
              · exact inv.heldIn x hx
          rw [hkind] at inv1
          obtain ⟨h', e1, e2, e3, _, e5⟩ := release_inv h.blocks.length _ _ p inv1 (by omega)
          refine ⟨h', e1, by rw [e3]; exact e2, [], ?_⟩
          rw [e5, List.append_nil]
          exact kinds_set _ _ _ _ hk (by simp [hkind])
        · rw [if_neg hlast]
          refine ⟨_, rfl, ?_, [], by rw [List.append_nil]; exact kinds_set _ _ _ _ hk (by simp [hkind])⟩
          have := same (by
            unfold Block.ref
            simp only [hkind]
            have h1 : (k.strong = 0 ∧ k.weak - 1 = 0) ↔ False := by
              constructor
              · rintro ⟨a, c⟩; exact hlast ⟨by omega, a⟩
              · exact False.elim
            have h2 : (k.strong = 0 ∧ k.weak = 0) ↔ False := by
              constructor
              · rintro ⟨a, c⟩; exact hw0 c
              · exact False.elim
            simp only [h1, h2])
          rw [hkind] at this
          exact this
    · rw [if_neg hb]; exact ⟨h, rfl, inv, [], by simp⟩
  | lock b =>
    simp only [step]
    by_cases hb : b ∈ h.watched
    · rw [if_pos hb]
      have hlt := inv.watchedIn b hb
      obtain ⟨k, hk⟩ : ∃ k, h.blocks[b]? = some k := ⟨_, List.getElem?_eq_getElem hlt⟩
      simp only [hk]
      by_cases hs : k.strong = 0
      · rw [if_pos hs]; exact ⟨h, rfl, inv, [], by simp⟩
      · rw [if_neg hs]
        obtain ⟨h1, e1, inv1, e2, e3, e4, e5⟩ := acquire_inv inv b k hk hs
        rw [e1, Outcome.bind_ok]
        exact ⟨_, rfl, inv1.setHeld _, [], by simp [e5]⟩
    · rw [if_neg hb]; exact ⟨h, rfl, inv, [], by simp⟩

theorem empty_inv : Inv Heap.empty Heap.empty.held := by
  refine ⟨?_, ?_, ?_, ?_, ?_, ?_, ?_⟩ <;> simp [Heap.empty]

theorem run_inv (os : List Op) : ∀ (h : Heap), Inv h h.held → ∃ h', run h os = .ok h' ∧ Inv h' h'.held ∧ ∃ new, h'.blocks.map Block.kind = h.blocks.map Block.kind ++ new := by
  induction os with
  | nil => intro h inv; exact ⟨h, rfl, inv, [], by simp⟩
  | cons o os ih =>
    intro h inv
    obtain ⟨h1, e1, inv1, n1, k1⟩ := step_inv inv o
    obtain ⟨h2, e2, inv2, n2, k2⟩ := ih h1 inv1
    refine ⟨h2, ?_, inv2, n1 ++ n2, by rw [k2, k1, List.append_assoc]⟩
    unfold run
    rw [e1, Outcome.bind_ok, e2]

/-! ## Objects and counts -/

theorem object_created {h : Heap} {b r : Nat} (o : Spec.Object h b r) : Spec.Created h r := by
  induction o with
  | own b k hk hr => exact ⟨k, hk, hr⟩
  | reset _ _ _ _ _ _ _ ih => exact ih
  | kept _ _ _ _ _ _ _ ih => exact ih

theorem object_unique {h : Heap} {b r : Nat} (o : Spec.Object h b r) : ∀ r', Spec.Object h b r' → r = r' := by
  induction o with
  | own b k hk hr =>
    intro r' o'
    cases o' with
    | own => rfl
    | reset _ p _ k' hk' hr' => rw [hk] at hk'; injection hk' with e; subst e; rw [hr] at hr'; cases hr'
    | kept _ p _ k' hk' hr' => rw [hk] at hk'; injection hk' with e; subst e; rw [hr] at hr'; cases hr'
  | reset b p r k hk hr _ ih =>
    intro r' o'
    cases o' with
    | own _ k' hk' hr' => rw [hk] at hk'; injection hk' with e; subst e; rw [hr] at hr'; cases hr'
    | reset _ p' _ k' hk' hr' op => rw [hk] at hk'; injection hk' with e; subst e; rw [hr] at hr'; injection hr' with e; subst e; exact ih _ op
    | kept _ p' _ k' hk' hr' => rw [hk] at hk'; injection hk' with e; subst e; rw [hr] at hr'; cases hr'
  | kept b p r k hk hr _ ih =>
    intro r' o'
    cases o' with
    | own _ k' hk' hr' => rw [hk] at hk'; injection hk' with e; subst e; rw [hr] at hr'; cases hr'
    | reset _ p' _ k' hk' hr' => rw [hk] at hk'; injection hk' with e; subst e; rw [hr] at hr'; cases hr'
    | kept _ p' _ k' hk' hr' op => rw [hk] at hk'; injection hk' with e; subst e; rw [hr] at hr'; injection hr' with e; subst e; exact ih _ op

theorem object_exists {h : Heap} {H : List Nat} (inv : Inv h H) (b : Nat) : b < h.blocks.length → ∃ r, Spec.Object h b r := by
  induction b using Nat.strongRecOn with
  | ind b ih =>
    intro hb
    have hk : h.blocks[b]? = some h.blocks[b] := List.getElem?_eq_getElem hb
    have hbel := inv.below b _ hk
    cases hkind : h.blocks[b].kind with
    | root => exact ⟨b, .own b _ hk hkind⟩
    | resetting p =>
      simp only [hkind] at hbel
      obtain ⟨r, hr⟩ := ih p hbel (by omega)
      exact ⟨r, .reset b p r _ hk hkind hr⟩
    | keeping p =>
      simp only [hkind] at hbel
      obtain ⟨r, hr⟩ := ih p hbel (by omega)
      exact ⟨r, .kept b p r _ hk hkind hr⟩

theorem refs_pos (l : List Block) (b p : Nat) (k : Block) (hk : l[b]? = some k) (hr : k.ref = some p) : 0 < refs l p := by
  unfold refs
  rw [List.countP_pos_iff]
  exact ⟨k, List.mem_of_getElem? hk, by simp [hr]⟩

theorem refs_some (l : List Block) (p : Nat) (h : 0 < refs l p) : ∃ (b : Nat) (k : Block), l[b]? = some k ∧ k.ref = some p := by
  unfold refs at h
  rw [List.countP_pos_iff] at h
  obtain ⟨k, hk, hr⟩ := h
  obtain ⟨b, hb⟩ := List.mem_iff_getElem?.mp hk
  exact ⟨b, k, hb, by simpa using hr⟩

theorem ref_strong {h : Heap} {H : List Nat} (inv : Inv h H) (b p : Nat) (k : Block) (hk : h.blocks[b]? = some k) (hr : k.ref = some p) (hp : p < b) :
    ∃ k', h.blocks[p]? = some k' ∧ k'.strong ≠ 0 := by
  have hlt := (List.getElem?_eq_some_iff.mp hk).1
  refine ⟨_, List.getElem?_eq_getElem (by omega), ?_⟩
  have := inv.strong p _ (List.getElem?_eq_getElem (by omega))
  have := refs_pos _ _ _ _ hk hr
  omega

/-- A pointer with a shared count keeps its object. -/
theorem object_strong {h : Heap} {H : List Nat} (inv : Inv h H) {b r : Nat} (o : Spec.Object h b r) :
    ∀ k, h.blocks[b]? = some k → k.strong ≠ 0 → ∃ k', h.blocks[r]? = some k' ∧ k'.strong ≠ 0 := by
  induction o with
  | own b k hk hr => intro k' hk' hs; exact ⟨k', hk', hs⟩
  | reset b p r k hk hr _ ih =>
    intro k' hk' hs
    rw [hk] at hk'; injection hk' with e; subst e
    have hbel := inv.below b _ hk
    simp only [hr] at hbel
    obtain ⟨k2, h2, h3⟩ := ref_strong inv b p k hk (by simp [Block.ref, hr, hs]) hbel
    exact ih k2 h2 h3
  | kept b p r k hk hr _ ih =>
    intro k' hk' hs
    rw [hk] at hk'; injection hk' with e; subst e
    have hbel := inv.below b _ hk
    simp only [hr] at hbel
    obtain ⟨k2, h2, h3⟩ := ref_strong inv b p k hk (by simp [Block.ref, hr, hs]) hbel
    exact ih k2 h2 h3

/-- A weak pointer to the result of `to_std` keeps the object. -/
theorem object_watched {h : Heap} {H : List Nat} (inv : Inv h H) (b r : Nat) (hw : b ∈ h.watched) (hf : Spec.FromToStd h b) (o : Spec.Object h b r) :
    ∃ k', h.blocks[r]? = some k' ∧ k'.strong ≠ 0 := by
  obtain ⟨k, p, hk, hr⟩ := hf
  have hbel := inv.below b _ hk
  simp only [hr] at hbel
  have hwk := inv.weak b k hk
  have hc : 0 < h.watched.count b := List.count_pos_iff.mpr hw
  have hne : k.weak ≠ 0 := by omega
  obtain ⟨k2, h2, h3⟩ := ref_strong inv b p k hk (by simp [Block.ref, hr, hne]) hbel
  cases o with
  | own _ k' hk' hr' => rw [hk] at hk'; injection hk' with e; subst e; rw [hr] at hr'; cases hr'
  | reset _ p' _ k' hk' hr' => rw [hk] at hk'; injection hk' with e; subst e; rw [hr] at hr'; cases hr'
  | kept _ p' _ k' hk' hr' op =>
    rw [hk] at hk'; injection hk' with e; subst e; rw [hr] at hr'; injection hr' with e; subst e
    exact object_strong inv op k2 h2 h3

/-- A shared count comes, in the end, from a variable. -/
theorem strong_reached {h : Heap} {H : List Nat} (inv : Inv h H) (n : Nat) : ∀ b, h.blocks.length - b = n → ∀ k, h.blocks[b]? = some k → k.strong ≠ 0 →
    ∃ c, (c ∈ H ∨ (c ∈ h.watched ∧ Spec.FromToStd h c)) ∧ (c ∈ H ∨ b < c) ∧ ∀ r, Spec.Object h b r → Spec.Object h c r := by
  induction n using Nat.strongRecOn with
  | ind n ih =>
    intro b hn k hk hs
    have hst := inv.strong b k hk
    by_cases hb : b ∈ H
    · exact ⟨b, Or.inl hb, Or.inl hb, fun r o => o⟩
    · have hz : H.count b = 0 := List.count_eq_zero.mpr hb
      obtain ⟨c, kc, hkc, hrc⟩ := refs_some h.blocks b (by omega)
      have hbel := inv.below c kc hkc
      have hlt := (List.getElem?_eq_some_iff.mp hkc).1
      unfold Block.ref at hrc
      cases hkind : kc.kind with
      | root => simp [hkind] at hrc
      | resetting p =>
        simp only [hkind] at hrc hbel
        split at hrc
        · cases hrc
        · rename_i hsc
          injection hrc with e
          subst e
          obtain ⟨d, hd, hlt2, ho⟩ := ih (h.blocks.length - c) (by omega) c rfl kc hkc hsc
          exact ⟨d, hd, hlt2.imp_right (fun x => by omega), fun r o => ho r (.reset c p r kc hkc hkind o)⟩
      | keeping p =>
        simp only [hkind] at hrc hbel
        split at hrc
        · cases hrc
        · rename_i hsc
          injection hrc with e
          subst e
          by_cases hs2 : kc.strong = 0
          · have hw2 : kc.weak ≠ 0 := fun e => hsc ⟨hs2, e⟩
            have := inv.weak c kc hkc
            have hmem : c ∈ h.watched := List.count_pos_iff.mp (by omega)
            exact ⟨c, Or.inr ⟨hmem, kc, p, hkc, hkind⟩, Or.inr hbel, fun r o => .kept c p r kc hkc hkind o⟩
          · obtain ⟨d, hd, hlt2, ho⟩ := ih (h.blocks.length - c) (by omega) c rfl kc hkc hs2
            exact ⟨d, hd, hlt2.imp_right (fun x => by omega), fun r o => ho r (.kept c p r kc hkc hkind o)⟩

theorem reach_inv {os : List Op} {h : Heap} (hr : run Heap.empty os = .ok h) : Inv h h.held := by
  obtain ⟨h', e, inv, _⟩ := run_inv os Heap.empty empty_inv
  rw [hr] at e
  injection e with e
  subst e
  exact inv

theorem created_alive {h : Heap} {H : List Nat} (inv : Inv h H) (r : Nat) (hc : Spec.Created h r) : r ∉ h.deleted ↔ ∃ k, h.blocks[r]? = some k ∧ k.strong ≠ 0 := by
  obtain ⟨k, hk, hroot⟩ := hc
  rw [inv.deleted r]
  constructor
  · intro hn
    exact ⟨k, hk, fun hs => hn ⟨k, hk, hroot, hs⟩⟩
  · rintro ⟨k2, h2, hs⟩ ⟨k3, h3, _, h4⟩
    rw [h2] at h3
    injection h3 with e
    subst e
    exact hs h4

theorem object_kinds {h h' : Heap} (new : List Kind) (hk : h'.blocks.map Block.kind = h.blocks.map Block.kind ++ new) {b r : Nat} (o : Spec.Object h b r) : Spec.Object h' b r := by
  have get : ∀ (i : Nat) (k : Block), h.blocks[i]? = some k → ∃ k', h'.blocks[i]? = some k' ∧ k'.kind = k.kind := by
    intro i k hi
    have h1 : (h.blocks.map Block.kind)[i]? = some k.kind := by simp [hi]
    have hlt := (List.getElem?_eq_some_iff.mp h1).1
    have h2 : (h'.blocks.map Block.kind)[i]? = some k.kind := by
      rw [hk, List.getElem?_append_left hlt, h1]
    rw [List.getElem?_map] at h2
    cases hb : h'.blocks[i]? with
    | none => simp [hb] at h2
    | some k' => simp [hb] at h2; exact ⟨k', rfl, h2⟩
  induction o with
  | own b k hk hr => obtain ⟨k', h1, h2⟩ := get b k hk; exact .own b k' h1 (h2.trans hr)
  | reset b p r k hk hr _ ih => obtain ⟨k', h1, h2⟩ := get b k hk; exact .reset b p r k' h1 (h2.trans hr) ih
  | kept b p r k hk hr _ ih => obtain ⟨k', h1, h2⟩ := get b k hk; exact .kept b p r k' h1 (h2.trans hr) ih

/-! ## C143 -/

/-- Whatever a program does with its pointers, the counts never go wrong, every shared pointer it holds points to exactly one object, this object has not been deleted, and no object is deleted twice. -/
theorem C143_valid (os : List Op) :
    ∃ h, run Heap.empty os = .ok h ∧ (∀ b ∈ h.held, ∃ r, Spec.Object h b r ∧ (∀ r', Spec.Object h b r' → r' = r) ∧ r ∉ h.deleted) ∧ h.deleted.Nodup := by
  obtain ⟨h, e, inv, _⟩ := run_inv os Heap.empty empty_inv
  refine ⟨h, e, ?_, inv.nodup⟩
  intro b hb
  obtain ⟨k, hk, hs⟩ := strong_pos inv b hb
  obtain ⟨r, hr⟩ := object_exists inv b (inv.heldIn b hb)
  refine ⟨r, hr, fun r' o => (object_unique hr r' o).symm, ?_⟩
  exact (created_alive inv r (object_created hr)).mpr (object_strong inv hr k hk hs)

/-- A copy or a conversion gives one more pointer, to the same object, and nothing is deleted. -/
theorem C143_same_object (os : List Op) (h : Heap) (hr : run Heap.empty os = .ok h) (b : Nat) (hb : b ∈ h.held) (o : Op) (ho : o = .copy b ∨ o = .toStd b ∨ o = .toBoost b) :
    ∃ h' n, step h o = .ok h' ∧ h'.held = n :: h.held ∧ h'.deleted = h.deleted ∧ ∀ r, Spec.Object h' n r ↔ Spec.Object h b r := by
  have inv := reach_inv hr
  obtain ⟨r0, hr0⟩ := object_exists inv b (inv.heldIn b hb)
  have hiff : ∀ (h' : Heap) (n : Nat), Spec.Object h' n r0 → ∀ r, Spec.Object h' n r ↔ Spec.Object h b r := by
    intro h' n hn r
    constructor
    · intro x; rw [← object_unique hn r x]; exact hr0
    · intro x; rw [← object_unique hr0 r x]; exact hn
  rcases ho with e | e | e
  · subst e
    simp only [step, if_pos hb]
    obtain ⟨k, hk, hs⟩ := strong_pos inv b hb
    obtain ⟨h1, e1, _, _, _, e4, e5⟩ := acquire_inv inv b k hk hs
    rw [e1, Outcome.bind_ok]
    refine ⟨_, b, rfl, rfl, e4, hiff _ _ ?_⟩
    exact object_kinds [] (by simp [e5]) hr0
  · subst e
    simp only [step, if_pos hb]
    obtain ⟨h', e1, _, e2, _, e4, e5⟩ := bridge_inv inv b hb (.keeping b) (Or.inr rfl)
    refine ⟨h', h.blocks.length, e1, e2, e4, hiff _ _ ?_⟩
    have hn : (h'.blocks.map Block.kind)[h.blocks.length]? = some (.keeping b) := by
      rw [e5, List.getElem?_append_right (by simp)]; simp
    rw [List.getElem?_map] at hn
    cases hg : h'.blocks[h.blocks.length]? with
    | none => simp [hg] at hn
    | some k => simp [hg] at hn; exact .kept _ b r0 k hg hn (object_kinds _ e5 hr0)
  · subst e
    simp only [step, if_pos hb]
    obtain ⟨h', e1, _, e2, _, e4, e5⟩ := bridge_inv inv b hb (.resetting b) (Or.inl rfl)
    refine ⟨h', h.blocks.length, e1, e2, e4, hiff _ _ ?_⟩
    have hn : (h'.blocks.map Block.kind)[h.blocks.length]? = some (.resetting b) := by
      rw [e5, List.getElem?_append_right (by simp)]; simp
    rw [List.getElem?_map] at hn
    cases hg : h'.blocks[h.blocks.length]? with
    | none => simp [hg] at hn
    | some k => simp [hg] at hn; exact .reset _ b r0 k hg hn (object_kinds _ e5 hr0)

/-- No later operation changes the object that a pointer points to. -/
theorem C143_stable (os os' : List Op) (h h' : Heap) (hr : run Heap.empty os = .ok h) (hr' : run h os' = .ok h') (b r : Nat) (o : Spec.Object h b r) : Spec.Object h' b r := by
  obtain ⟨h2, e, _, new, hk⟩ := run_inv os' h (reach_inv hr)
  rw [hr'] at e
  injection e with e
  subst e
  exact object_kinds new hk o

/-- Exactly which objects exist: those that some shared pointer points to, and those that a weak pointer made from a result of `to_std` points to. -/
theorem C143_alive (os : List Op) (h : Heap) (hr : run Heap.empty os = .ok h) (r : Nat) (hc : Spec.Created h r) :
    r ∉ h.deleted ↔ ∃ b, Spec.Object h b r ∧ (b ∈ h.held ∨ (b ∈ h.watched ∧ Spec.FromToStd h b)) := by
  have inv := reach_inv hr
  rw [created_alive inv r hc]
  constructor
  · rintro ⟨k, hk, hs⟩
    obtain ⟨c, hc', _, ho⟩ := strong_reached inv _ r rfl k hk hs
    obtain ⟨k', hk', hroot⟩ := hc
    exact ⟨c, ho r (.own r k' hk' hroot), hc'⟩
  · rintro ⟨b, ho, hb | ⟨hw, hf⟩⟩
    · obtain ⟨k, hk, hs⟩ := strong_pos inv b hb
      exact object_strong inv ho k hk hs
    · exact object_watched inv b r hw hf ho

/-- Missing: programs with weak pointers that were made from results of `to_std`. Without them an object is deleted as soon as no shared pointer, on either side, points to it, and not before. -/
theorem C143_deleted_partial (os : List Op) (h : Heap) (hr : run Heap.empty os = .ok h) (hw : ∀ b ∈ h.watched, ¬ Spec.FromToStd h b) (r : Nat) (hc : Spec.Created h r) :
    r ∈ h.deleted ↔ ∀ b ∈ h.held, ¬ Spec.Object h b r := by
  have := C143_alive os h hr r hc
  constructor
  · intro hd b hb ho
    exact this.mpr ⟨b, ho, Or.inl hb⟩ hd
  · intro hall
    apply Classical.byContradiction
    intro hn
    obtain ⟨b, ho, hb | ⟨hb, hf⟩⟩ := this.mp hn
    · exact hall b hb ho
    · exact hw b hb hf

/-- A weak pointer made from a result of `to_std` keeps the object alive, also when no shared pointer is left. If it is the only pointer left, `lock` fails: the object exists but cannot be reached. -/
theorem C143_counterexample_weak (os : List Op) (h : Heap) (hr : run Heap.empty os = .ok h) (b r : Nat) (hb : b ∈ h.watched) (hf : Spec.FromToStd h b) (ho : Spec.Object h b r) :
    r ∉ h.deleted ∧ (h.held = [] → h.watched = [b] → step h (.lock b) = .ok h) := by
  refine ⟨(C143_alive os h hr r (object_created ho)).mpr ⟨b, ho, Or.inr ⟨hb, hf⟩⟩, ?_⟩
  intro hH hW
  have inv := reach_inv hr
  have hlt := inv.watchedIn b hb
  have hk : h.blocks[b]? = some h.blocks[b] := List.getElem?_eq_getElem hlt
  simp only [step, if_pos hb, hk]
  by_cases hs : h.blocks[b].strong = 0
  · rw [if_pos hs]
  · exfalso
    obtain ⟨c, hc, hlt2, _⟩ := strong_reached inv _ b rfl _ hk hs
    rw [hH, hW] at hc
    rw [hH] at hlt2
    simp at hc hlt2
    omega

/-- Two pointers to an object, one on each side: when the first is dropped the object stays, when the second is dropped it goes. -/
example : run Heap.empty [.create, .toStd 0, .drop 0] = .ok ⟨[⟨.root, 1, 0⟩, ⟨.keeping 0, 1, 0⟩], [1], [], []⟩ := by decide

example : run Heap.empty [.create, .toStd 0, .toBoost 1, .drop 0, .drop 1, .drop 2] = .ok ⟨[⟨.root, 0, 0⟩, ⟨.keeping 0, 0, 0⟩, ⟨.resetting 1, 0, 0⟩], [], [], [0]⟩ := by decide

/-- The hypotheses of the counterexample are met: a weak pointer to the result of `to_std` is all that is left, and the object with it. -/
example : run Heap.empty [.create, .toStd 0, .watch 1, .drop 1, .drop 0] = .ok ⟨[⟨.root, 1, 0⟩, ⟨.keeping 0, 0, 1⟩], [], [1], []⟩ := by decide

/-- Not so for `to_boost`. -/
example : run Heap.empty [.create, .toBoost 0, .watch 1, .drop 1, .drop 0] = .ok ⟨[⟨.root, 0, 0⟩, ⟨.resetting 0, 0, 1⟩], [], [1], [0]⟩ := by decide

end Esl.Sharing
