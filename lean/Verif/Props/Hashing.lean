import Verif.Model.Hashing
import Verif.Props.Identity
/-!
C155: keys are found in unordered containers.
-/
namespace Esl.Hashing
variable {κ β : Type}

/-! ## Specification -/

/-- Equality is an equivalence, and equal keys have the same hash. -/
structure Spec.Consistent (K : Keys κ) : Prop where
  refl : ∀ a, K.eq a a = true
  symm : ∀ a b, K.eq a b = true → K.eq b a = true
  trans : ∀ a b c, K.eq a b = true → K.eq b c = true → K.eq a c = true
  hash : ∀ a b, K.eq a b = true → K.hash a = K.hash b

/-- What an operation is meant to do to a dictionary, with keys that are compared by `eq`; hashes and buckets do not matter. -/
def Spec.apply (eq : κ → κ → Bool) (f : κ → Option β) : Operation κ β → κ → Option β
  | .emplace k v => fun k' => if eq k k' then some ((f k).getD v) else f k'
  | .assign k v => fun k' => if eq k k' then some v else f k'
  | .erase k => fun k' => if eq k k' then none else f k'
  | .rehash _ => f

/-- A dictionary after some operations. -/
def Spec.dictionary (eq : κ → κ → Bool) (l : List (Operation κ β)) : κ → Option β := l.foldl (Spec.apply eq) fun _ => none

/-! ## Tables -/

/-- There is a bucket, and all entries are in the buckets that their hashes say. -/
def Good (K : Keys κ) (t : Table κ β) : Prop := 0 < t.buckets.length ∧ ∀ i l, t.buckets[i]? = some l → ∀ e ∈ l, K.hash e.1 % t.buckets.length = i

theorem bucket_lt (K : Keys κ) (t : Table κ β) (h : Good K t) (k : κ) : t.bucket K k < t.buckets.length := Nat.mod_lt _ h.1

theorem bucket_eq (K : Keys κ) (hK : Spec.Consistent K) (t : Table κ β) {a b : κ} (h : K.eq a b = true) : t.bucket K a = t.bucket K b := by
  unfold Table.bucket
  rw [hK.hash a b h]

theorem eq_congr (K : Keys κ) (hK : Spec.Consistent K) {a b : κ} (h : K.eq a b = true) (e : κ) : K.eq e a = K.eq e b := by
  rw [Bool.eq_iff_iff]
  exact ⟨fun h' => hK.trans _ _ _ h' h, fun h' => hK.trans _ _ _ h' (hK.symm _ _ h)⟩

theorem find_congr (K : Keys κ) (hK : Spec.Consistent K) (t : Table κ β) {a b : κ} (h : K.eq a b = true) : t.find K a = t.find K b := by
  unfold Table.find
  rw [bucket_eq K hK t h]
  simp only [eq_congr K hK h]

theorem bucket_change (K : Keys κ) (t : Table κ β) (k k' : κ) (f : List (κ × β) → List (κ × β)) : (t.change K k f).bucket K k' = t.bucket K k' := by
  simp [Table.bucket, Table.change]

theorem find_change (K : Keys κ) (t : Table κ β) (h : Good K t) (k k' : κ) (f : List (κ × β) → List (κ × β)) :
    (t.change K k f).find K k' =
      if t.bucket K k = t.bucket K k' then ((f ((t.buckets[t.bucket K k]?).getD [])).find? fun e => K.eq e.1 k').map (·.2) else t.find K k' := by
  unfold Table.find
  rw [bucket_change]
  simp only [Table.change, List.getElem?_modify]
  by_cases hb : t.bucket K k = t.bucket K k'
  · have hl := bucket_lt K t h k'
    rw [if_pos hb, hb]
    simp [List.getElem?_eq_getElem hl]
  · rw [if_neg hb]
    have hid : ∀ o : Option (List (κ × β)), (fun a => if t.bucket K k = t.bucket K k' then f a else a) <$> o = o := by
      intro o
      cases o <;> simp [hb]
    rw [hid]

theorem good_change (K : Keys κ) (t : Table κ β) (h : Good K t) (k : κ) (f : List (κ × β) → List (κ × β)) (hf : ∀ l, ∀ e ∈ f l, e.1 = k ∨ ∃ e' ∈ l, e'.1 = e.1) : Good K (t.change K k f) := by
  refine ⟨by simpa [Table.change] using h.1, ?_⟩
  intro i l hl e he
  simp only [Table.change, List.getElem?_modify, List.length_modify] at hl ⊢
  cases ho : t.buckets[i]? with
  | none => rw [ho] at hl; cases hl
  | some l0 =>
    rw [ho] at hl
    simp only [Option.map_eq_map, Option.map_some, Option.some.injEq] at hl
    by_cases hb : t.bucket K k = i
    · rw [if_pos hb] at hl
      subst hl
      rcases hf l0 e he with h1 | ⟨e', h1, h2⟩
      · rw [h1]; exact hb
      · rw [← h2]; exact h.2 i l0 ho e' h1
    · rw [if_neg hb] at hl
      subst hl
      exact h.2 i l0 ho e he

theorem find?_congr' {α : Type} (l : List α) (p q : α → Bool) (h : ∀ a ∈ l, p a = q a) : l.find? p = l.find? q := by
  induction l with
  | nil => rfl
  | cons a l ih =>
    rw [List.find?_cons, List.find?_cons, h a List.mem_cons_self, ih fun b hb => h b (List.mem_cons_of_mem _ hb)]

/-- Only one of several lists contains what is looked for. -/
theorem find?_flatten_one {α : Type} (p : α → Bool) : ∀ (L : List (List α)) (i : Nat), (∀ j l, L[j]? = some l → j ≠ i → ∀ a ∈ l, p a = false) → L.flatten.find? p = ((L[i]?).getD []).find? p
  | [], i, _ => by simp
  | l :: L, 0, h => by
    have hn : L.flatten.find? p = none := by
      rw [List.find?_eq_none]
      intro a ha
      obtain ⟨l', hl', ha'⟩ := List.mem_flatten.mp ha
      obtain ⟨j, hj, rfl⟩ := List.getElem_of_mem hl'
      simp [h (j + 1) L[j] (by simp [hj]) (by omega) a ha']
    simp [List.flatten_cons, List.find?_append, hn]
  | l :: L, i + 1, h => by
    have hn : l.find? p = none := by
      rw [List.find?_eq_none]
      intro a ha
      simp [h 0 l (by simp) (by omega) a ha]
    rw [List.flatten_cons, List.find?_append, hn]
    simp only [Option.none_or, List.getElem?_cons_succ]
    exact find?_flatten_one p L i fun j l' hl hj a ha => h (j + 1) l' (by simpa using hl) (by omega) a ha

theorem find_flatten (K : Keys κ) (hK : Spec.Consistent K) (t : Table κ β) (h : Good K t) (k : κ) : t.find K k = (t.buckets.flatten.find? fun e => K.eq e.1 k).map (·.2) := by
  rw [find?_flatten_one _ t.buckets (t.bucket K k)]
  · rfl
  · intro j l hl hj e he
    cases hp : K.eq e.1 k with
    | false => rfl
    | true =>
      exfalso
      apply hj
      rw [← h.2 j l hl e he, hK.hash _ _ hp]
      rfl

theorem good_rehash (K : Keys κ) (t : Table κ β) (n : Nat) (hn : n ≠ 0) : Good K (t.rehash K n) := by
  refine ⟨by simp [Table.rehash]; omega, ?_⟩
  intro i l hl e he
  simp only [Table.rehash, List.getElem?_map] at hl
  cases ho : (List.range n)[i]? with
  | none => rw [ho] at hl; cases hl
  | some j =>
    rw [ho] at hl
    simp only [Option.map_some, Option.some.injEq] at hl
    obtain ⟨hj, hj'⟩ := List.getElem?_eq_some_iff.mp ho
    simp at hj'
    subst hl
    simp only [List.mem_filter, beq_iff_eq] at he
    simp only [Table.rehash, List.length_map, List.length_range]
    omega

theorem find_rehash (K : Keys κ) (hK : Spec.Consistent K) (t : Table κ β) (h : Good K t) (n : Nat) (hn : n ≠ 0) (k : κ) : (t.rehash K n).find K k = t.find K k := by
  rw [find_flatten K hK t h]
  unfold Table.find Table.bucket Table.rehash
  simp only [List.length_map, List.length_range, List.getElem?_map]
  rw [List.getElem?_range (Nat.mod_lt _ (Nat.pos_of_ne_zero hn))]
  simp only [Option.map_some, Option.getD_some, List.find?_filter]
  congr 1
  apply find?_congr'
  intro e _
  cases hp : K.eq e.1 k with
  | false => simp
  | true => simp [hK.hash _ _ hp]

theorem step_find (K : Keys κ) (hK : Spec.Consistent K) (t : Table κ β) (h : Good K t) (o : Operation κ β) (k' : κ) : (t.apply K o).find K k' = Spec.apply K.eq (t.find K) o k' := by
  have hnew : ∀ k v, (t.find K k).isSome = false → (t.change K k ((k, v) :: ·)).find K k' = if K.eq k k' = true then some v else t.find K k' := by
    intro k v _
    rw [find_change K t h]
    by_cases hk : K.eq k k' = true
    · rw [if_pos (bucket_eq K hK t hk), if_pos hk, List.find?_cons]
      simp [hk]
    · rw [if_neg hk]
      by_cases hb : t.bucket K k = t.bucket K k'
      · rw [if_pos hb, List.find?_cons]
        simp only [Bool.not_eq_true] at hk
        simp only [hk, hb]
        rfl
      · rw [if_neg hb]
  cases o with
  | emplace k v =>
    simp only [Table.apply, Spec.apply]
    cases hs : (t.find K k).isSome with
    | true =>
      obtain ⟨w, hw⟩ := Option.isSome_iff_exists.mp hs
      rw [if_pos rfl]
      by_cases hk : K.eq k k' = true
      · rw [if_pos hk, hw, ← find_congr K hK t hk, hw]; rfl
      · rw [if_neg hk]
    | false =>
      rw [if_neg (by decide), hnew k v hs]
      have hw : t.find K k = none := by simpa using hs
      rw [hw]; rfl
  | assign k v =>
    simp only [Table.apply, Spec.apply]
    cases hs : (t.find K k).isSome with
    | false => rw [if_neg (by decide), hnew k v hs]
    | true =>
      rw [if_pos rfl, find_change K t h]
      by_cases hk : K.eq k k' = true
      · rw [if_pos (bucket_eq K hK t hk), if_pos hk]
        rw [find_congr K hK t hk] at hs
        unfold Table.find at hs
        rw [← bucket_eq K hK t hk] at hs
        generalize (t.buckets[t.bucket K k]?).getD [] = l at hs ⊢
        rw [List.find?_map]
        have hp : ((fun e : κ × β => K.eq e.1 k') ∘ fun e => if K.eq e.1 k = true then (e.1, v) else e) = fun e => K.eq e.1 k' := by
          funext e
          simp only [Function.comp]
          by_cases he : K.eq e.1 k = true
          · rw [if_pos he]
          · rw [if_neg he]
        rw [hp]
        cases hf : l.find? fun e => K.eq e.1 k' with
        | none => rw [hf] at hs; cases hs
        | some e =>
          have he := List.find?_some hf
          rw [← eq_congr K hK hk] at he
          simp [he]
      · rw [if_neg hk]
        by_cases hb : t.bucket K k = t.bucket K k'
        · rw [if_pos hb]
          unfold Table.find
          rw [hb]
          generalize (t.buckets[t.bucket K k']?).getD [] = l
          rw [List.find?_map]
          have hp : ((fun e : κ × β => K.eq e.1 k') ∘ fun e => if K.eq e.1 k = true then (e.1, v) else e) = fun e => K.eq e.1 k' := by
            funext e
            simp only [Function.comp]
            by_cases he : K.eq e.1 k = true
            · rw [if_pos he]
            · rw [if_neg he]
          rw [hp]
          cases hf : l.find? fun e => K.eq e.1 k' with
          | none => rfl
          | some e =>
            have he := List.find?_some hf
            have hne : K.eq e.1 k ≠ true := fun h' => hk (hK.trans _ _ _ (hK.symm _ _ h') he)
            simp [hne]
        · rw [if_neg hb]
  | erase k =>
    simp only [Table.apply, Spec.apply]
    rw [find_change K t h]
    by_cases hk : K.eq k k' = true
    · rw [if_pos (bucket_eq K hK t hk), if_pos hk, List.find?_filter]
      rw [Option.map_eq_none_iff, List.find?_eq_none]
      intro e _
      simp [eq_congr K hK hk]
    · rw [if_neg hk]
      by_cases hb : t.bucket K k = t.bucket K k'
      · rw [if_pos hb, List.find?_filter]
        unfold Table.find
        rw [hb]
        congr 1
        apply find?_congr'
        intro e _
        cases he : K.eq e.1 k' with
        | false => simp
        | true =>
          have hne : K.eq e.1 k = false := by
            cases h' : K.eq e.1 k with
            | false => rfl
            | true => exact absurd (hK.trans _ _ _ (hK.symm _ _ h') he) hk
          simp [hne]
      · rw [if_neg hb]
  | rehash n =>
    simp only [Table.apply, Spec.apply]
    by_cases hn : n = 0
    · rw [if_pos hn]
    · rw [if_neg hn, find_rehash K hK t h n hn]

theorem step_good (K : Keys κ) (t : Table κ β) (h : Good K t) (o : Operation κ β) : Good K (t.apply K o) := by
  have hcons : ∀ k v, Good K (t.change K k ((k, v) :: ·)) := fun k v => good_change K t h k _ fun l e he => by
    rcases List.mem_cons.mp he with rfl | he
    · exact Or.inl rfl
    · exact Or.inr ⟨e, he, rfl⟩
  cases o with
  | emplace k v =>
    simp only [Table.apply]
    by_cases hs : (t.find K k).isSome = true
    · rw [if_pos hs]; exact h
    · rw [if_neg hs]; exact hcons k v
  | assign k v =>
    simp only [Table.apply]
    by_cases hs : (t.find K k).isSome = true
    · rw [if_pos hs]
      apply good_change K t h
      intro l e he
      obtain ⟨e', h1, h2⟩ := List.mem_map.mp he
      refine Or.inr ⟨e', h1, ?_⟩
      rw [← h2]
      by_cases hk : K.eq e'.1 k = true
      · rw [if_pos hk]
      · rw [if_neg hk]
    · rw [if_neg hs]; exact hcons k v
  | erase k => exact good_change K t h k _ fun l e he => Or.inr ⟨e, (List.mem_filter.mp he).1, rfl⟩
  | rehash n =>
    simp only [Table.apply]
    by_cases hn : n = 0
    · rw [if_pos hn]; exact h
    · rw [if_neg hn]; exact good_rehash K t n hn

theorem spec_congr (K : Keys κ) (f g : κ → Option β) (h : ∀ k, f k = g k) (o : Operation κ β) : ∀ k, Spec.apply K.eq f o k = Spec.apply K.eq g o k := by
  rw [funext h]; intro k; rfl

/-! ## C155 -/

/-- **C155**: in an unordered container whose keys are compared by an equivalence that their hashes respect, looking up a key after any operations gives what a dictionary would give, for any hash function and number of buckets, and however often the number of buckets changes. -/
theorem C155_container (K : Keys κ) (hK : Spec.Consistent K) (l : List (Operation κ β)) (k : κ) : (Table.empty.run K l).find K k = Spec.dictionary K.eq l k := by
  suffices h : ∀ (t : Table κ β) (f : κ → Option β), Good K t → (∀ k, t.find K k = f k) → ∀ k, (t.run K l).find K k = l.foldl (Spec.apply K.eq) f k by
    refine h Table.empty _ ⟨by simp [Table.empty], ?_⟩ ?_ k
    · intro i b hb e he
      match i with
      | 0 => simp [Table.empty] at hb; subst hb; cases he
      | i + 1 => simp [Table.empty] at hb
    · intro k
      simp [Table.find, Table.bucket, Table.empty, Nat.mod_one]
  induction l with
  | nil => exact fun t f _ h => h
  | cons o l ih =>
    intro t f hg h
    exact ih _ _ (step_good K t hg o) fun k => by rw [step_find K hK t hg o, spec_congr K _ _ h o k]

/-- **C155**: identities, and with them agents, entities and properties, are keys as they should be, whatever `boost::hash_combine` does. The hash of an identity with one digit is this digit, and that of an identity without digits is zero. -/
theorem C155_identity (combine : Nat → Nat → Nat) : Spec.Consistent (propertyKeys combine) ∧ (∀ a b, (propertyKeys combine).eq a b = true ↔ a = b) ∧ (∀ d, identityHash combine [d] = d) ∧ identityHash combine [] = 0 ∧
    ∀ d l, l ≠ [] → identityHash combine (d :: l) = combine (identityHash combine l) d := by
  have h : ∀ a b, Identity.eq a b = true ↔ a = b := Identity.eq_iff
  refine ⟨⟨fun a => (h a a).mpr rfl, fun a b hab => (h b a).mpr ((h a b).mp hab).symm, fun a b c hab hbc => (h a c).mpr (((h a b).mp hab).trans ((h b c).mp hbc)), fun a b hab => ?_⟩, h, fun d => rfl, rfl, ?_⟩
  · have := (h a b).mp hab
    subst this
    rfl
  · intro d l hl
    unfold identityHash
    rw [List.reverse_cons]
    cases hr : l.reverse with
    | nil => exact absurd (List.reverse_eq_nil_iff.mp hr) hl
    | cons x r => simp

/-- **C155**: tickers are keys as they should be. -/
theorem C155_ticker (combine : Nat → Nat → Nat) : Spec.Consistent (tickerKeys combine) ∧ (∀ a b, (tickerKeys combine).eq a b = true ↔ a = b) := by
  have h : ∀ a b, (tickerKeys combine).eq a b = true ↔ a = b := by
    intro a b
    cases a
    cases b
    simp [tickerKeys, Ticker.eq, Identity.eq_iff]
  refine ⟨⟨fun a => (h a a).mpr rfl, fun a b hab => (h b a).mpr ((h a b).mp hab).symm, fun a b c hab hbc => (h a c).mpr (((h a b).mp hab).trans ((h b c).mp hbc)), fun a b hab => ?_⟩, h⟩
  have := (h a b).mp hab
  subst this
  rfl

/-- **C155**: money is a key as it should be: equal currencies, with equal denominators. -/
theorem C155_cash : Spec.Consistent cashKeys ∧ (∀ a b, cashKeys.eq a b = true ↔ a = b) := by
  have h : ∀ a b, cashKeys.eq a b = true ↔ a = b := by
    intro a b
    cases a
    cases b
    simp [cashKeys, cashEq, and_assoc]
  refine ⟨⟨fun a => (h a a).mpr rfl, fun a b hab => (h b a).mpr ((h a b).mp hab).symm, fun a b c hab hbc => (h a c).mpr (((h a b).mp hab).trans ((h b c).mp hbc)), fun a b hab => ?_⟩, h⟩
  have := (h a b).mp hab
  subst this
  rfl

/-- The same number, as `==` says: the same representation, or two zeros. -/
theorem real_eq (a b : Real32) : a.eq b = true ↔ (a = b ∧ a ≠ .nan) ∨ ∃ s t, a = .zero s ∧ b = .zero t := by
  cases a <;> cases b <;> simp [Real32.eq]

theorem share_eq (a b : Share) : a.eq b = true ↔ a.rank = b.rank ∧ a.votes = b.votes ∧ a.dividend = b.dividend ∧ a.preference.eq b.preference = true ∧ a.cumulative = b.cumulative ∧ a.redeemable = b.redeemable := by
  simp [Share.eq, and_assoc]

/-- **C155 (partial)**: equal share classes have the same hash, zeros of both signs included, and equality is symmetric and transitive. A share class is equal to itself exactly if its preference is a number. Missing: share classes whose preference is not a number (see the counterexample). -/
theorem C155_share_partial (combine : Nat → Nat → Nat) (h : Nat → Nat) :
    (∀ a b, (shareKeys combine h).eq a b = true → (shareKeys combine h).hash a = (shareKeys combine h).hash b) ∧
    (∀ a b, (shareKeys combine h).eq a b = true → (shareKeys combine h).eq b a = true) ∧
    (∀ a b c, (shareKeys combine h).eq a b = true → (shareKeys combine h).eq b c = true → (shareKeys combine h).eq a c = true) ∧
    (∀ a, (shareKeys combine h).eq a a = true ↔ a.preference ≠ .nan) := by
  refine ⟨?_, ?_, ?_, ?_⟩
  · intro a b hab
    obtain ⟨h1, h2, h3, h4, h5, h6⟩ := (share_eq a b).mp hab
    have hp : a.preference.hash h = b.preference.hash h := by
      rcases (real_eq _ _).mp h4 with ⟨h4, _⟩ | ⟨s, t, h4, h4'⟩
      · rw [h4]
      · rw [h4, h4']; rfl
    simp only [shareKeys, Share.hash, h1, h2, h3, hp, h5, h6]
  · intro a b hab
    obtain ⟨h1, h2, h3, h4, h5, h6⟩ := (share_eq a b).mp hab
    refine (share_eq b a).mpr ⟨h1.symm, h2.symm, h3.symm, ?_, h5.symm, h6.symm⟩
    rcases (real_eq _ _).mp h4 with ⟨h4, h4'⟩ | ⟨s, t, h4, h4'⟩
    · exact (real_eq _ _).mpr (Or.inl ⟨h4.symm, by rw [← h4]; exact h4'⟩)
    · exact (real_eq _ _).mpr (Or.inr ⟨t, s, h4', h4⟩)
  · intro a b c hab hbc
    obtain ⟨h1, h2, h3, h4, h5, h6⟩ := (share_eq a b).mp hab
    obtain ⟨g1, g2, g3, g4, g5, g6⟩ := (share_eq b c).mp hbc
    refine (share_eq a c).mpr ⟨h1.trans g1, h2.trans g2, h3.trans g3, ?_, h5.trans g5, h6.trans g6⟩
    rcases (real_eq _ _).mp h4 with ⟨h4, h4'⟩ | ⟨s, t, h4, h4'⟩
    · rw [h4]; exact g4
    · rcases (real_eq _ _).mp g4 with ⟨g4, _⟩ | ⟨s', t', _, g4'⟩
      · exact (real_eq _ _).mpr (Or.inr ⟨s, t, h4, by rw [← g4]; exact h4'⟩)
      · exact (real_eq _ _).mpr (Or.inr ⟨s, t', h4, g4'⟩)
  · intro a
    have h' := share_eq a a
    simp only [true_and, and_true] at h'
    show a.eq a = true ↔ _
    rw [h', real_eq]
    constructor
    · rintro (⟨_, h⟩ | ⟨s, t, h, _⟩)
      · exact h
      · rw [h]; simp
    · intro h
      exact Or.inl ⟨rfl, h⟩

/-- **C155 is violated** for share classes whose preference is not a number: whatever is in the container and whatever is done with the key, it is not found. -/
theorem C155_counterexample_nan (combine : Nat → Nat → Nat) (h : Nat → Nat) (t : Table Share β) (s : Share) (hs : s.preference = .nan) : t.find (shareKeys combine h) s = none := by
  unfold Table.find
  rw [Option.map_eq_none_iff, List.find?_eq_none]
  intro e _ he
  have := ((share_eq e.1 s).mp he).2.2.2.1
  rw [hs] at this
  cases hp : e.1.preference <;> rw [hp] at this <;> cases this

/-! ## Examples -/

example : (Table.empty.run (propertyKeys fun a b => 31 * a + b) [.emplace [1] 10, .rehash 7, .assign [1, 2] 20, .emplace [1] 11, .rehash 2, .erase [1, 2]]).find (propertyKeys fun a b => 31 * a + b) [1] = some 10 := by decide +kernel

example : (Share.mk 0 1 (.zero true) true false false).eq (Share.mk 0 1 (.zero false) true false false) = true := by decide

example : Share.eq ⟨0, 1, .nan, true, false, false⟩ ⟨0, 1, .nan, true, false, false⟩ = false := by decide

end Esl.Hashing
