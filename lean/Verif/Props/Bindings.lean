import Verif.Model.Bindings
import Verif.Props.Attributes
/-!
C144: the clearing model in Python; C145: agents and companies in Python.
-/
namespace Esl.Bindings

/-! ## Specification -/

/-- The first quote that a dictionary states for a property. -/
def Spec.quoteFor {q : Type} (d : Dict q) (k : Nat) : Option q :=
  d.findSome? fun e => match e with | (.object i, .object v) => if i = k then some v else none | _ => none

/-! ## Lemmas -/

theorem lookup_append {q : Type} (m : List (Nat × q)) (k : Nat) (v : q) (i : Nat) : (m ++ [(k, v)]).lookup i = (m.lookup i).or (if k = i then some v else none) := by
  induction m with
  | nil =>
    by_cases e : k = i
    · subst e; simp
    · have : (i == k) = false := by simp; exact fun x => e x.symm
      simp [List.lookup, this, e]
  | cons x m ih =>
    simp only [List.cons_append, List.lookup]
    cases i == x.1 <;> simp [ih]

theorem any_lookup {q : Type} (m : List (Nat × q)) (k : Nat) : (m.any fun e => e.1 == k) = (m.lookup k).isSome := by
  induction m with
  | nil => rfl
  | cons x m ih =>
    simp only [List.any_cons, List.lookup]
    by_cases e : x.1 = k
    · subst e; simp
    · have h1 : (k == x.1) = false := by simp; exact fun y => e y.symm
      simp [h1, e, ih]

theorem tryEmplace_lookup {q : Type} (m : List (Nat × q)) (k : Nat) (v : q) (i : Nat) : (tryEmplace m k v).lookup i = (m.lookup i).or (if k = i then some v else none) := by
  unfold tryEmplace
  rw [any_lookup]
  cases h : (m.lookup k).isSome with
  | true =>
    simp only [if_true]
    by_cases e : k = i
    · subst e
      cases h2 : m.lookup k with
      | none => simp [h2] at h
      | some x => simp
    · simp [e]
  | false =>
    simp [lookup_append]

theorem construct_lookup {q : Type} (d : Dict q) : ∀ (m m' : List (Nat × q)), construct d m = .ok m' → ∀ i, m'.lookup i = (m.lookup i).or (Spec.quoteFor d i) := by
  induction d with
  | nil => intro m m' h i; simp [construct] at h; subst h; simp [Spec.quoteFor]
  | cons e d ih =>
    intro m m' h i
    obtain ⟨k, v⟩ := e
    cases k with
    | object k =>
      cases v with
      | object v =>
        simp only [construct] at h
        rw [ih _ _ h i, tryEmplace_lookup]
        simp only [Spec.quoteFor, List.findSome?_cons]
        by_cases e : k = i
        · subst e; cases m.lookup k <;> simp
        · simp [e]
      | none => simp only [construct] at h; rw [ih _ _ h i]; simp [Spec.quoteFor]
      | other => simp only [construct] at h; rw [ih _ _ h i]; simp [Spec.quoteFor]
    | none =>
      cases v with
      | object v => simp [construct] at h
      | none => simp only [construct] at h; rw [ih _ _ h i]; simp [Spec.quoteFor]
      | other => simp only [construct] at h; rw [ih _ _ h i]; simp [Spec.quoteFor]
    | other =>
      cases v with
      | object v => simp only [construct] at h; rw [ih _ _ h i]; simp [Spec.quoteFor]
      | none => simp only [construct] at h; rw [ih _ _ h i]; simp [Spec.quoteFor]
      | other => simp only [construct] at h; rw [ih _ _ h i]; simp [Spec.quoteFor]

theorem construct_objects {q : Type} (l : List (Nat × q)) : ∀ m : List (Nat × q), (m.map (·.1) ++ l.map (·.1)).Nodup →
    construct (l.map fun e => ((.object e.1, .object e.2) : Object Nat × Object q)) m = .ok (m ++ l) := by
  induction l with
  | nil => intro m _; simp [construct]
  | cons e l ih =>
    intro m hn
    simp only [List.map_cons, construct]
    have hnot : (m.any fun x => x.1 == e.1) = false := by
      rw [List.any_eq_false]
      intro x hx hxe
      simp only [beq_iff_eq] at hxe
      rw [List.nodup_append] at hn
      exact hn.2.2 x.1 (List.mem_map_of_mem hx) e.1 (by simp) hxe
    unfold tryEmplace
    simp only [hnot]
    rw [if_neg (by simp), ih (m ++ [(e.1, e.2)]) (by simpa using hn)]
    simp

theorem setOrdersLoop_objects (ms : List Nat) (o : Orders) : setOrdersLoop (ms.map Object.object) o = (o ++ ms.map some, false) := by
  induction ms generalizing o with
  | nil => simp [setOrdersLoop]
  | cons m ms ih => simp [setOrdersLoop, ih]

theorem demands_objects (f : Nat → Rat) (ms : List Nat) : demands f (ms.map some) = .ok (ms.map f).sum := by
  induction ms with
  | nil => rfl
  | cons m ms ih => simp [demands, ih]

/-! ## C144 -/

/-- Missing: dictionaries with other entries. A dictionary from properties with different identities to quotes becomes a market for exactly these properties at these quotes. -/
theorem C144_market_partial {q : Type} (l : List (Nat × q)) (hn : (l.map (·.1)).Nodup) : construct (l.map fun e => ((.object e.1, .object e.2) : Object Nat × Object q)) [] = .ok l := by
  rw [construct_objects l [] (by simpa using hn)]
  simp

example : construct [((.object 3, .object 'a') : Object Nat × Object Char), (.object 5, .object 'b')] [] = .ok [(3, 'a'), (5, 'b')] := by decide

/-- Entries that are no quotes for properties disappear without an error, and of two properties with the same identity only the first is used: whenever a market is made, it has the first quote that the dictionary
states for a property. -/
theorem C144_counterexample_dropped {q : Type} (d : Dict q) (m : List (Nat × q)) (h : construct d [] = .ok m) (i : Nat) : m.lookup i = Spec.quoteFor d i := by
  simpa using construct_lookup d [] m h i

/-- A quote that is given as a number instead of a quote, and a second property with the identity of another, are lost. -/
example : construct [((.object 3, .other) : Object Nat × Object Char), (.object 5, .object 'b'), (.object 5, .object 'c')] [] = .ok [(5, 'b')] := by decide

/-- A quote for `None` is undefined behaviour, whatever else is in the dictionary. -/
theorem C144_counterexample_none {q : Type} (d d' : Dict q) (v : q) (m : List (Nat × q)) : construct (d ++ (.none, .object v) :: d') m = .ub := by
  induction d generalizing m with
  | nil => rfl
  | cons e d ih =>
    obtain ⟨k, w⟩ := e
    cases k <;> cases w <;> simp [construct, ih]

/-- Missing: lists with other elements. Assigning a list of orders replaces the orders, which can be read back and all take part in the clearing. -/
theorem C144_orders_partial (o : Orders) (ms : List Nat) (f : Nat → Rat) :
    setOrders o (ms.map Object.object) = (ms.map some, false) ∧ getOrders (execute o (.assign (ms.map Object.object))) = ms.map some ∧
      demands f (execute o (.assign (ms.map Object.object))) = .ok (ms.map f).sum := by
  have h : setOrders o (ms.map Object.object) = (ms.map some, false) := by simp [setOrders, setOrdersLoop_objects]
  refine ⟨h, ?_, ?_⟩
  · simp [getOrders, execute, h]
  · simp [execute, h, demands_objects]

example : execute [some 1, some 2] (.assign [.object 7, .object 8]) = [some 7, some 8] := by decide

/-- An assignment that fails does not leave the orders as they were: it leaves those before the element that could not be converted. -/
theorem C144_counterexample_failure (o : Orders) (ms : List Nat) (l : List (Object Nat)) : setOrders o (ms.map Object.object ++ .other :: l) = (ms.map some, true) := by
  have : ∀ acc, setOrdersLoop (ms.map Object.object ++ .other :: l) acc = (acc ++ ms.map some, true) := by
    induction ms with
    | nil => intro acc; simp [setOrdersLoop]
    | cons m ms ih => intro acc; simp [setOrdersLoop, ih]
  simp [setOrders, this]

/-- `None` in the list is accepted, and then the clearing is undefined behaviour. -/
theorem C144_counterexample_null (o : Orders) (ms ns : List Nat) (f : Nat → Rat) :
    (setOrders o (ms.map Object.object ++ .none :: ns.map Object.object)).2 = false ∧ demands f (setOrders o (ms.map Object.object ++ .none :: ns.map Object.object)).1 = .ub := by
  have : ∀ acc, setOrdersLoop (ms.map Object.object ++ .none :: ns.map Object.object) acc = (acc ++ ms.map some ++ none :: ns.map some, false) := by
    induction ms with
    | nil => intro acc; simp [setOrdersLoop, setOrdersLoop_objects]
    | cons m ms ih => intro acc; simp [setOrdersLoop, ih]
  simp only [setOrders, this, List.nil_append, true_and]
  clear this
  induction ms with
  | nil => rfl
  | cons m ms ih => simp [demands, ih]

/-- Appending to the list of orders and deleting from it have no effect: programs without assignments leave the orders as they are. -/
theorem C144_counterexample_append (o : Orders) (program : List Statement) (h : ∀ s ∈ program, ∀ l, s ≠ .assign l) : program.foldl execute o = o := by
  induction program generalizing o with
  | nil => rfl
  | cons s p ih =>
    simp only [List.foldl_cons]
    have h1 : execute o s = o := by
      cases s with
      | assign l => exact absurd rfl (h _ (by simp) l)
      | append m => rfl
      | delete i => rfl
    rw [h1]
    exact ih o (fun s hs => h s (List.mem_cons_of_mem _ hs))

example : [Statement.append (some 3), .delete 0].foldl execute [some 1] = [some 1] := by decide

theorem clearing_some {q : Type} (l : List (Nat × q)) (hn : (l.map (·.1)).Nodup) : clearingQuotes (some l) = l := by
  unfold clearingQuotes
  have : ∀ (d l : List (Nat × q)), (d.map (·.1) ++ l.map (·.1)).Nodup →
      l.foldl (fun d e => if d.any fun x => x.1 == e.1 then d.map fun x => if x.1 = e.1 then e else x else d ++ [e]) d = d ++ l := by
    intro d l
    induction l generalizing d with
    | nil => intro _; simp
    | cons e l ih =>
      intro hn
      have hnot : (d.any fun x => x.1 == e.1) = false := by
        rw [List.any_eq_false]
        intro x hx hxe
        simp only [beq_iff_eq] at hxe
        rw [List.nodup_append] at hn
        exact hn.2.2 x.1 (List.mem_map_of_mem hx) e.1 (by simp) hxe
      simp only [List.foldl_cons, hnot]
      rw [if_neg (by simp), ih (d ++ [e]) (by simpa using hn)]
      simp
  simpa using this [] l (by simpa using hn)

/-- Missing: markets without properties. The dictionary has the quotes of the solution, and it tells a solution from a failure if there is at least one property. -/
theorem C144_solution_partial {q : Type} (r : Option (List (Nat × q))) (hn : ∀ l, r = some l → (l.map (·.1)).Nodup ∧ l ≠ []) :
    (∀ l, r = some l → clearingQuotes r = l) ∧ (clearingQuotes r = [] ↔ r = none) := by
  constructor
  · intro l e; subst e; exact clearing_some l (hn l rfl).1
  · cases r with
    | none => simp [clearingQuotes]
    | some l => simp [clearing_some l (hn l rfl).1, (hn l rfl).2]

example : clearingQuotes (some [(3, 'x'), (4, 'y')]) = [(3, 'x'), (4, 'y')] := by decide

/-- A failure looks like the solution of a market without properties. -/
theorem C144_counterexample_unsolved {q : Type} : clearingQuotes (none : Option (List (Nat × q))) = clearingQuotes (some ([] : List (Nat × q))) := rfl

/-! ## C145 -/

/-- Missing: classes without the method. A company whose class has the method acts on the dividend it returns, like a company in C++; `None` means no dividend. -/
theorem C145_company_partial (shareholders : List (Nat × Company.Register Nat)) (st : Company.State) (lower upper : Nat) (p : Company.Policy) :
    companyAct shareholders st lower upper (some (.object p)) = .ok (Company.act shareholders st lower upper (some p)) ∧
      companyAct shareholders st lower upper (some .none) = .ok (upper, st, []) ∧ companyAct shareholders st lower upper (some .other) = .throws := ⟨rfl, rfl, rfl⟩

example : companyAct [] ⟨0, 0⟩ 5 9 (some (.object ⟨3, 4, 5⟩)) = .ok (9, ⟨3, 3⟩, []) := by decide

/-- A company whose class does not define dividends can never act: every step fails, where the same company in C++ goes on until the end of the step. -/
theorem C145_counterexample_company (shareholders : List (Nat × Company.Register Nat)) (st : Company.State) (lower upper : Nat) :
    companyAct shareholders st lower upper none = .throws ∧ Company.act shareholders st lower upper none = (upper, st, []) := ⟨rfl, rfl⟩

/-- Creating an agent in Python creates nothing: the collection stays as it is and there is no agent to activate. Activating the result is undefined behaviour. -/
theorem C145_counterexample_create {α : Type} (c : Mpi.Collection α) (x : α) : (create c x).1 = c ∧ activate c (create c x).2 = .ub ∧ deactivate c (create c x).2 = .ub := ⟨rfl, rfl, rfl⟩

/-- Missing: creating agents. An agent that exists is there after it was activated, the others stay, and it is gone after it was deactivated. -/
theorem C145_activate_partial {α : Type} (c : Mpi.Collection α) (i : Nat) (x : α) (hi : (inhabitants c).lookup i = none) :
    ∃ c', activate c (.object (i, x)) = .ok c' ∧ (∀ j, (inhabitants c').lookup j = if j = i then some (some x) else (inhabitants c).lookup j) ∧
      ∃ c'', deactivate c' (.object (i, x)) = .ok c'' ∧ ∀ j, (inhabitants c'').lookup j = (inhabitants c).lookup j := by
  have hany : (c.here.any fun e => e.1 == i) = false := by
    rw [any_lookup]; simpa [inhabitants] using hi
  have hhere : (c.activate i x).here = c.here ++ [(i, some x)] := by
    unfold Mpi.Collection.activate
    simp only [hany]
    rw [if_neg (by simp)]
  refine ⟨_, rfl, ?_, _, rfl, ?_⟩
  · intro j
    unfold inhabitants at *
    rw [hhere, lookup_append]
    by_cases e : j = i
    · subst e; simp [hi]
    · have e' : ¬ i = j := fun y => e y.symm
      simp [e, e']
  · intro j
    unfold inhabitants Mpi.Collection.deactivate
    simp only [hhere, List.filter_append]
    have hkeep : (c.here.filter fun e => !(e.1 == i)) = c.here := by
      rw [List.filter_eq_self]
      intro e he
      have := List.any_eq_false.mp hany e he
      simpa using this
    rw [hkeep]
    simp

example : activate (⟨[], []⟩ : Mpi.Collection Char) (.object (3, 'a')) = .ok ⟨[3], [(3, some 'a')]⟩ := by rfl

/-- Python cannot see the agents of a model: once the collection has any, `local_agents()` raises an exception, unless another module has defined a class for identities of agents. -/
theorem C145_counterexample_local_agents {α : Type} (before known : List String) (hi : Attributes.importEsl before = .ok known) (hb : "identity<agent>" ∉ before) (c : Mpi.Collection α) :
    localAgents known c = .ok (inhabitants c) ↔ inhabitants c = [] := by
  have hk : known.contains "identity<agent>" = false := by
    have h := ((Attributes.C161_order_partial before Attributes.eslModule).2 known hi "identity<agent>").1
    have hd : ¬ ∃ d ∈ Attributes.eslModule, d.type = "identity<agent>" := by decide +kernel
    have hn : "identity<agent>" ∉ known := fun x => (h x).elim hb hd
    simpa using hn
  unfold localAgents inhabitants
  rw [hk]
  cases c.here <;> simp

example : ∃ known, Attributes.importEsl ["header", "market"] = .ok known ∧ localAgents known (⟨[3], [(3, some 'a')]⟩ : Mpi.Collection Char) = .throws := by
  refine ⟨_, rfl, by decide +kernel⟩

/-- The numbers of a seed are taken over as they are, and all other lists are refused. -/
theorem C145_seed (l : List (Object Int)) (r : List Nat) : seedSequence l = .ok r ↔ l = r.map (fun n => .object (n : Int)) ∧ ∀ n ∈ r, n < 2 ^ 32 := by
  induction l generalizing r with
  | nil =>
    simp only [seedSequence]
    constructor
    · intro h; injection h with h; subst h; simp
    · rintro ⟨h, _⟩
      cases r with
      | nil => rfl
      | cons n r => simp at h
  | cons o l ih =>
    cases o with
    | object z =>
      simp only [seedSequence]
      constructor
      · intro h
        split at h
        · rename_i hz
          rw [Outcome.bind_eq_ok] at h
          obtain ⟨r', h1, h2⟩ := h
          injection h2 with h2
          subst h2
          obtain ⟨h3, h4⟩ := (ih r').mp h1
          refine ⟨?_, ?_⟩
          · simp only [List.map_cons, ← h3]
            rw [Int.toNat_of_nonneg hz.1]
          · intro n hn
            simp only [List.mem_cons] at hn
            rcases hn with e | e
            · omega
            · exact h4 n e
        · cases h
      · rintro ⟨h, hb⟩
        cases r with
        | nil => simp at h
        | cons n r =>
          simp only [List.map_cons, List.cons.injEq, Object.object.injEq] at h
          obtain ⟨h1, h2⟩ := h
          have hn := hb n (by simp)
          rw [if_pos (by omega), (ih r).mpr ⟨h2, fun m hm => hb m (by simp [hm])⟩]
          simp [h1]
    | none => simp only [seedSequence]; constructor
              · intro h; cases h
              · rintro ⟨h, _⟩; cases r <;> simp at h
    | other => simp only [seedSequence]; constructor
               · intro h; cases h
               · rintro ⟨h, _⟩; cases r <;> simp at h

example : seedSequence [.object 7, .object 4294967295] = .ok [7, 4294967295] := by decide

example : seedSequence [.object 7, .object (-1)] = .throws := by decide

end Esl.Bindings
