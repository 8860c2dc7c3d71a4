import Verif.Model.Identifiable
import Verif.Props.Identity
/-! C195: identifiers of derived types. -/
namespace Esl.Identifiable
open Esl.Identity (Ident)
open Esl.Construction (Class)

theorem mem_offered {origin : Class} {levels : List Level} {t : Kind} (h : t ∈ offered origin levels) :
    (∃ l ∈ levels, l.argument = some t) ∨ ∃ c, derives c 8 origin = true ∧ (identifiable c).map Kind.library = some t := by
  rcases List.mem_append.1 h with h | h
  · obtain ⟨l, hl, e⟩ := List.mem_filterMap.1 h
    exact .inl ⟨l, hl, e⟩
  · obtain ⟨d, hd, rfl⟩ := List.mem_map.1 h
    obtain ⟨c, hc, e⟩ := List.mem_filterMap.1 hd
    exact .inr ⟨c, (List.mem_filter.1 hc).2, by rw [e]; rfl⟩

theorem identifiable_self (c d : Class) (h : identifiable c = some d) : d = c := by
  cases c <;> simp [identifiable] at h <;> exact h.symm

/-- **C195 (partial).** The classes of the user that are `levels`, most derived first, derive from the class `origin` of the library, and give `identifiable_as` no argument but themselves. From the beginning of the constructor of
one of them (`levels.drop k`), an object can be converted to each type that is offered for that class and for its bases (`levels.drop j`): the result has the digits of the identifier of the object.
What is missing: classes that give `identifiable_as` another argument, and conversions before the constructor of the class in question begins, see the counterexamples. -/
theorem C195_identifier_partial (identifier : Ident) (origin : Class) (levels : List Level) (own : ∀ l ∈ levels, ∀ t, l.argument = some t → t = .user l.name) (k j : Nat) (hkj : k ≤ j) (t : Kind)
    (ht : t ∈ offered origin (levels.drop j)) : convert identifier origin (levels.drop k) t = .ok identifier := by
  have hsub : ∀ l ∈ levels.drop j, l ∈ levels.drop k := by
    intro l hl
    obtain ⟨d, rfl⟩ := Nat.exists_eq_add_of_le hkj
    rw [← List.drop_drop] at hl
    exact List.mem_of_mem_drop hl
  unfold convert
  rw [if_pos]
  rcases mem_offered ht with ⟨l, hl, e⟩ | ⟨c, hc, e⟩
  · rw [own l (List.mem_of_mem_drop hl) t e]
    simp only [isA, List.any_eq_true, beq_iff_eq]
    exact ⟨l, hsub l hl, rfl⟩
  · rcases hi : identifiable c with _ | d
    · rw [hi] at e; cases e
    · rw [hi] at e
      simp only [Option.map_some, Option.some.injEq] at e
      rw [← e, identifiable_self c d hi]
      exact hc

example : Kind.user 2 ∈ offered .shareholder ([⟨1, none⟩, ⟨2, some (.user 2)⟩].drop 1) ∧ Kind.library .owner ∈ offered .shareholder [⟨1, none⟩] ∧ Kind.library .agent ∈ offered .shareholder [] ∧ Kind.library .company ∉ offered .shareholder [] := by
  decide

/-- **C195, the library.** An object of a class of the library can be converted to each type that is offered. Agents and properties are offered the type at their root, and exactly these classes are offered their own type; for others,
such as legal persons, organizations and the markets with prices, there is no conversion to an identifier of their own type. -/
theorem C195_library (identifier : Ident) (c : Class) :
    (∀ t ∈ offered c [], convert identifier c [] t = .ok identifier) ∧ (Kind.library .agent ∈ offered c [] ∨ Kind.library .property ∈ offered c []) ∧
    (Kind.library c ∈ offered c [] ↔ c ∈ [Class.property, .bond, .agent, .ownerOfProperty, .owner, .shareholder, .bondholder, .company, .market, .exchange]) := by
  refine ⟨fun t ht => C195_identifier_partial identifier c [] (by simp) 0 0 (Nat.le_refl _) t ht, ?_, ?_⟩
  · cases c <;> decide +kernel
  · cases c <;> decide +kernel

/-- **C195, comparison.** Identifiers that objects are converted to, whatever their types are, compare equal exactly if the objects have the same identifier. -/
theorem C195_compare (i j a b : Ident) (o p : Class) (k l : List Level) (t u : Kind) (ha : convert i o k t = .ok a) (hb : convert j p l u = .ok b) : Identity.eq a b = true ↔ i = j := by
  unfold convert at ha hb
  split at ha
  · split at hb
    · cases ha; cases hb
      exact Identity.eq_iff i j
    · cases hb
  · cases ha

example : convert [1, 2] .company [] (.library .shareholder) = .ok [1, 2] ∧ convert [1, 2] .company [⟨7, some (.user 7)⟩] (.user 7) = .ok [1, 2] := by decide

/-- **C195, documentation.** The documented exception `std::bad_cast` is never thrown. -/
theorem C195_never_throws (identifier : Ident) (origin : Class) (levels : List Level) (t : Kind) : convert identifier origin levels t ≠ .throws := by
  unfold convert
  split <;> exact nofun

/-- **C195, negation, construction.** If the names of the classes differ, a conversion to the type of a derived class is undefined as long as the constructor of one of its bases runs, or their destructors: for every class that can be
converted to its own type. -/
theorem C195_counterexample_construction (identifier : Ident) (origin : Class) (derived : List Level) (l : Level) (between running : List Level) (names : ((derived ++ l :: between ++ running).map (·.name)).Nodup) (own : l.argument = some (.user l.name)) :
    Kind.user l.name ∈ offered origin (derived ++ l :: between ++ running) ∧ convert identifier origin (derived ++ l :: between ++ running) (.user l.name) = .ok identifier ∧ convert identifier origin running (.user l.name) = .ub := by
  refine ⟨?_, ?_, ?_⟩
  · unfold offered
    refine List.mem_append_left _ (List.mem_filterMap.2 ⟨l, by simp, own⟩)
  · unfold convert
    rw [if_pos]
    simp [isA]
  · unfold convert
    rw [if_neg]
    simp only [isA, List.any_eq_true, beq_iff_eq, not_exists, not_and]
    intro x hx e
    simp only [List.map_append, List.map_cons, List.nodup_append, List.mem_append, List.mem_cons] at names
    exact names.2.2 l.name (.inr (.inl rfl)) x.name (List.mem_map.2 ⟨x, hx, rfl⟩) e.symm

example : convert [5] .market [⟨1, none⟩, ⟨2, some (.user 2)⟩, ⟨3, none⟩, ⟨4, none⟩] (.user 2) = .ok [5] ∧ convert [5] .market [⟨4, none⟩] (.user 2) = .ub := by decide

/-- **C195, negation, arguments.** Nothing checks that the argument of `identifiable_as` is the class: with a class that the object is not derived from, the compiler offers the conversion, and it is undefined for every object. -/
theorem C195_counterexample_argument (identifier : Ident) (origin : Class) (levels : List Level) (l : Level) (hl : l ∈ levels) (n : Nat) (other : l.argument = some (.user n)) (hn : ∀ x ∈ levels, x.name ≠ n) :
    Kind.user n ∈ offered origin levels ∧ convert identifier origin levels (.user n) = .ub := by
  refine ⟨List.mem_append_left _ (List.mem_filterMap.2 ⟨l, hl, other⟩), ?_⟩
  unfold convert
  rw [if_neg]
  simp only [isA, List.any_eq_true, beq_iff_eq, not_exists, not_and]
  exact fun x hx => hn x hx

example : convert [1] .agent [⟨1, some (.user 2)⟩] (.user 2) = .ub := by decide

end Esl.Identifiable
