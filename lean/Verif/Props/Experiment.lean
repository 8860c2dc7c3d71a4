import Verif.Model.Experiment
/-! C164: parameters that a Python program sets are the parameters of the model. -/
namespace Esl.Experiment
open Esl.Python (Parameter Number)

/-- The names of the parameters that every model has. -/
def Spec.names : List String := ["sample", "start", "end", "verbosity", "threads"]

/-- The value of a model for such a name; the number of threads is at least one. -/
def Spec.valueOf (m : Model) (name : String) : Nat :=
  if name = "sample" then m.sample else if name = "start" then m.start else if name = "end" then m.stop else if name = "verbosity" then m.verbosity else m.threads

/-- The number that a Python value denotes, if it is one. -/
def Spec.number : Value → Option Number
  | .float b | .numpyFloat b => some (.float b)
  | .int z | .numpySigned z => some (.int z)
  | .bool b => some (.int (if b then 1 else 0))
  | .numpyUnsigned n => some (.int n)
  | _ => none

theorem make_unsigned (n : Nat) (h : n < 2 ^ 64) : make (.numpyUnsigned n) = .ok (.uint64 n) := by
  show makeUint n = _
  rw [makeUint, if_pos (by omega), Int.toNat_natCast]

theorem lookup_assign (ps : Parameters) (name other : String) (p : Parameter) : (assign ps name p).lookup other = if other = name then some p else ps.lookup other := by
  by_cases h : other = name
  · subst h; simp [assign]
  · rw [if_neg h]
    have h1 : (other == name) = false := by simpa using h
    simp only [assign, List.lookup, h1]
    induction ps with
    | nil => rfl
    | cons e ps ih =>
      obtain ⟨k, v⟩ := e
      by_cases hk : k = name
      · subst hk
        simpa [List.filter, List.lookup, h1] using ih
      · have h2 : (k == name) = false := by simpa using hk
        simp only [List.filter, h2, Bool.not_false, List.lookup]
        by_cases h3 : other = k
        · subst h3; simp
        · have h3' : (other == k) = false := by simpa using h3
          simp only [h3']; exact ih

/-- **C164, reading back.** If a number can be added, then it is what is read, whatever was there before, and other parameters stay as they are. Numbers that fit the 64 bits of their type can be added. -/
theorem C164_read_back_partial (ps ps' : Parameters) (name : String) (v : Value) (x : Number) (hx : Spec.number v = some x) (h : addConstant ps name v = .ok ps') :
    read ps' name = .ok x ∧ ∀ other, other ≠ name → read ps' other = read ps other ∧ get ps' other = get ps other := by
  have key : ∃ p, make v = .ok p ∧ ps' = assign ps name p := by
    unfold addConstant at h
    cases hm : make v with
    | ok p => rw [hm] at h; simp only [Outcome.bind_ok] at h; injection h with h; exact ⟨p, rfl, h.symm⟩
    | throws => rw [hm] at h; cases h
    | ub => rw [hm] at h; cases h
  obtain ⟨p, hp, rfl⟩ := key
  constructor
  · simp only [read, lookup_assign, if_true]
    cases v with
    | float b => injection hp with hp; injection hx with hx; subst hp; subst hx; rfl
    | int z =>
      simp only [make, makeInt] at hp
      split at hp
      · injection hp with hp; injection hx with hx; subst hp; subst hx; rfl
      · cases hp
    | bool b =>
      injection hx with hx; subst hx
      have hb : make (.bool b) = .ok (.int64 (if b then 1 else 0)) := by cases b <;> rfl
      rw [hb] at hp; injection hp with hp; subst hp; rfl
    | price _ _ => cases hx
    | numpySigned z =>
      injection hx with hx; subst hx
      have hz : makeInt z = .ok p := hp
      unfold makeInt at hz
      split at hz
      · injection hz with hz; subst hz; rfl
      · cases hz
    | numpyUnsigned n =>
      have hx' : Number.int n = x := Option.some.inj hx
      rw [← hx']
      by_cases hn : n < 2 ^ 64
      · have hp' : Outcome.ok (Parameter.uint64 n) = .ok p := (make_unsigned n hn).symm.trans hp
        rw [← Outcome.ok.inj hp']
      · have hp' : makeUint n = .ok p := hp
        rw [makeUint, if_neg (by omega)] at hp'; cases hp'
    | numpyFloat b => injection hp with hp; injection hx with hx; subst hp; subst hx; rfl
    | other => cases hx
  · intro other ho
    simp only [read, get, lookup_assign, if_neg ho, and_self]

/-- **C164, names that are not there.** A parameter that was never added raises an exception, whatever else was added, and so does one that is a price, which can be added. -/
theorem C164_absent (ps : Parameters) (name : String) :
    ((∀ p ∈ ps, p.1 ≠ name) → read ps name = .throws ∧ get ps name = .throws) ∧
    ∀ v c, ∃ ps', addConstant ps name (.price v c) = .ok ps' ∧ read ps' name = .throws := by
  constructor
  · intro h
    have : ps.lookup name = none := by
      rw [List.lookup_eq_none_iff]
      exact fun p hp => by simpa using (h p hp).symm
    unfold read get
    rw [this]
    exact ⟨rfl, rfl⟩
  · intro v c
    refine ⟨_, rfl, ?_⟩
    simp only [read, lookup_assign, if_true]

example : read (fresh true) "wealth" = .throws ∧ (∀ p ∈ fresh true, p.1 ≠ "wealth") := by decide +kernel

example : ∃ ps, addConstant (fresh true) "wealth" (.int (-3)) = .ok ps ∧ read ps "wealth" = .ok (.int (-3)) ∧ read ps "end" = .ok (.int 1) := ⟨_, rfl, by decide +kernel, by decide +kernel⟩

/-- **C164, ranges.** A Python integer can be added exactly if it fits 64 bits with a sign, and an unsigned `numpy` number if it fits 64 bits. -/
theorem C164_fits_partial (ps : Parameters) (name : String) (z : Int) (n : Nat) :
    ((∃ ps', addConstant ps name (.int z) = .ok ps') ↔ -2 ^ 63 ≤ z ∧ z < 2 ^ 63) ∧ ((∃ ps', addConstant ps name (.numpyUnsigned n) = .ok ps') ↔ n < 2 ^ 64) := by
  constructor
  · unfold addConstant make makeInt
    by_cases h : -2 ^ 63 ≤ z ∧ z < 2 ^ 63
    · simp only [if_pos h, Outcome.bind_ok]; exact ⟨fun _ => h, fun _ => ⟨_, rfl⟩⟩
    · simp only [if_neg h]; exact ⟨fun ⟨_, h⟩ => (by cases h), fun h' => absurd h' h⟩
  · unfold addConstant make makeUint
    by_cases h : (0 : Int) ≤ n ∧ (n : Int) < 2 ^ 64
    · simp only [if_pos h, Outcome.bind_ok]; exact ⟨fun _ => by omega, fun _ => ⟨_, rfl⟩⟩
    · simp only [if_neg h]; exact ⟨fun ⟨_, h⟩ => (by cases h), fun h' => absurd (by omega) h⟩

/-- **C164, refusal.** A value is refused with an exception, and changes nothing, exactly if it is no number or price, or a number that does not fit; and no value is undefined behaviour. -/
theorem C164_refused (ps : Parameters) (name : String) (v : Value) :
    addConstant ps name v ≠ .ub ∧
    (addConstant ps name v = .throws ↔ v = .other ∨ (∃ z : Int, (v = .int z ∨ v = .numpySigned z) ∧ (z < -2 ^ 63 ∨ 2 ^ 63 ≤ z)) ∨ ∃ n : Nat, v = .numpyUnsigned n ∧ 2 ^ 64 ≤ n) := by
  have hi : ∀ z : Int, makeInt z = .throws ∧ (z < -2 ^ 63 ∨ 2 ^ 63 ≤ z) ∨ (∃ p, makeInt z = .ok p) ∧ ¬(z < -2 ^ 63 ∨ 2 ^ 63 ≤ z) := by
    intro z
    unfold makeInt
    by_cases h : -2 ^ 63 ≤ z ∧ z < 2 ^ 63
    · rw [if_pos h]; exact .inr ⟨⟨_, rfl⟩, by omega⟩
    · rw [if_neg h]; exact .inl ⟨rfl, by omega⟩
  cases v with
  | other => exact ⟨by simp [addConstant, make], by simp [addConstant, make]⟩
  | float b => exact ⟨by simp [addConstant, make], by simp [addConstant, make]⟩
  | numpyFloat b => exact ⟨by simp [addConstant, make], by simp [addConstant, make]⟩
  | price a c => exact ⟨by simp [addConstant, make], by simp [addConstant, make]⟩
  | bool b =>
    have h : make (.bool b) = .ok (.int64 (if b then 1 else 0)) := by cases b <;> rfl
    exact ⟨by simp [addConstant, h], by simp [addConstant, h]⟩
  | int z =>
    rcases hi z with ⟨h, hz⟩ | ⟨⟨p, h⟩, hz⟩
    · exact ⟨by simp [addConstant, make, h], by simpa [addConstant, make, h] using hz⟩
    · exact ⟨by simp [addConstant, make, h], by simpa [addConstant, make, h] using hz⟩
  | numpySigned z =>
    rcases hi z with ⟨h, hz⟩ | ⟨⟨p, h⟩, hz⟩
    · exact ⟨by simp [addConstant, make, h], by simpa [addConstant, make, h] using hz⟩
    · exact ⟨by simp [addConstant, make, h], by simpa [addConstant, make, h] using hz⟩
  | numpyUnsigned n =>
    by_cases hn : n < 2 ^ 64
    · have h := make_unsigned n hn
      refine ⟨by simp [addConstant, h], ?_⟩
      simp only [addConstant, h, Outcome.bind_ok, reduceCtorEq, false_and, or_self, exists_false, false_or, Value.numpyUnsigned.injEq, false_iff, not_exists, not_and]
      rintro m rfl; omega
    · have h : make (.numpyUnsigned n) = .throws := by show makeUint n = _; rw [makeUint, if_neg (by omega)]
      exact ⟨by simp [addConstant, h], by simp only [addConstant, h]; exact ⟨fun _ => .inr (.inr ⟨n, rfl, by omega⟩), fun _ => rfl⟩⟩

example : addConstant (fresh true) "x" (.int (2 ^ 63)) = .throws ∧ addConstant (fresh true) "x" .other = .throws := by decide +kernel

/-- A program that sets parameters, and stops at the first exception. -/
def Spec.setAll (ps : Parameters) : List (String × Value) → Outcome Parameters
  | [] => .ok ps
  | (name, v) :: l => addConstant ps name v >>= fun ps => Spec.setAll ps l

/-- The last of the numbers that were set, or else the one from before. -/
def Spec.last (before : Nat) (name : String) (l : List (String × Nat)) : Nat := l.foldl (fun n e => if e.1 = name then e.2 else n) before

theorem get_setAll (ps : Parameters) (l : List (String × Nat)) (hl : ∀ e ∈ l, e.2 < 2 ^ 64) :
    ∃ ps', Spec.setAll ps (l.map fun e => (e.1, .numpyUnsigned e.2)) = .ok ps' ∧ ∀ name n, get ps name = .ok n → get ps' name = .ok (Spec.last n name l) := by
  induction l generalizing ps with
  | nil => exact ⟨ps, rfl, fun _ _ h => h⟩
  | cons e l ih =>
    obtain ⟨k, n⟩ := e
    have hn : n < 2 ^ 64 := hl _ List.mem_cons_self
    have h1 : addConstant ps k (.numpyUnsigned n) = .ok (assign ps k (.uint64 n)) := by
      rw [addConstant, make_unsigned n hn, Outcome.bind_ok]
    obtain ⟨ps', h2, h3⟩ := ih (assign ps k (.uint64 n)) fun e he => hl e (List.mem_cons_of_mem _ he)
    refine ⟨ps', ?_, ?_⟩
    · simp only [List.map_cons, Spec.setAll, h1, Outcome.bind_ok, h2]
    · intro name m hm
      simp only [Spec.last, List.foldl_cons]
      apply h3
      by_cases hk : name = k
      · subst hk; simp [get, lookup_assign]
      · have hk' : ¬ k = name := fun h => hk h.symm
        simp only [get, lookup_assign, if_neg hk, if_neg hk']
        exact hm

/-- **C164 for unsigned `numpy` numbers.** When a program sets any parameters to unsigned `numpy` numbers, any number of times, then a model can be constructed, and it has the last number set for each name; those that are not set are 0, 1, 0 for the
start, the end and the sample. The number of threads is at least one; it begins at the start. -/
theorem C164_numpy_partial (release : Bool) (l : List (String × Nat)) (hl : ∀ e ∈ l, e.2 < 2 ^ 64) :
    ∃ ps m, Spec.setAll (fresh release) (l.map fun e => (e.1, .numpyUnsigned e.2)) = .ok ps ∧ construct ps = .ok m ∧
      m.start = Spec.last 0 "start" l ∧ m.stop = Spec.last 1 "end" l ∧ m.sample = Spec.last 0 "sample" l ∧ m.time = m.start ∧
      m.verbosity = Spec.last (if release then 0 else 1) "verbosity" l ∧ m.threads = max 1 (Spec.last (if release then 0 else 1) "threads" l) := by
  obtain ⟨ps, h1, h2⟩ := get_setAll (fresh release) l hl
  refine ⟨ps, ⟨Spec.last 0 "start" l, Spec.last 1 "end" l, Spec.last 0 "start" l, Spec.last 0 "sample" l, Spec.last (if release then 0 else 1) "verbosity" l,
    max 1 (Spec.last (if release then 0 else 1) "threads" l)⟩, h1, ?_, rfl, rfl, rfl, rfl, rfl, rfl⟩
  unfold construct
  rw [h2 "start" 0 (by cases release <;> decide +kernel), h2 "end" 1 (by cases release <;> decide +kernel), h2 "sample" 0 (by cases release <;> decide +kernel),
    h2 "verbosity" (if release then 0 else 1) (by cases release <;> decide +kernel), h2 "threads" (if release then 0 else 1) (by cases release <;> decide +kernel)]
  rfl

example : ∀ e ∈ [("start", 10), ("end", 50), ("sample", 7), ("end", 60)], e.2 < 2 ^ 64 := by decide

example : Spec.last 1 "end" [("start", 10), ("end", 50), ("sample", 7), ("end", 60)] = 60 := by decide

/-- **C164 fails for Python's own integers:** if the value that was set last for any of the parameters of a model is an integer (or anything else but an unsigned `numpy` number), then no model can be constructed, whatever the other parameters are,
and whatever the integer is. -/
theorem C164_counterexample_int (ps ps' : Parameters) (name : String) (hn : name ∈ Spec.names) (v : Value) (hv : ∀ n, v ≠ .numpyUnsigned n) (h : addConstant ps name v = .ok ps') :
    construct ps' = .throws ∧ simpleExperiment ps' = .throws := by
  have hg : get ps' name = .throws := by
    unfold addConstant at h
    cases hm : make v with
    | ok p =>
      rw [hm] at h; simp only [Outcome.bind_ok] at h; injection h with h; subst h
      have hp : ∀ n, p ≠ .uint64 n := by
        intro n hpn
        subst hpn
        cases v <;> simp only [make, makeInt] at hm
        case numpyUnsigned n => exact hv n rfl
        all_goals first | (split at hm <;> simp at hm) | simp at hm
      simp only [get, lookup_assign, if_true]
      cases p with
      | uint64 n => exact absurd rfl (hp n)
      | _ => rfl
    | throws => rw [hm] at h; cases h
    | ub => rw [hm] at h; cases h
  have hnub : ∀ s, get ps' s ≠ .ub := by
    intro s
    unfold get
    split <;> simp
  have hc : construct ps' = .throws := by
    unfold construct
    simp only [Spec.names, List.mem_cons, List.not_mem_nil, or_false] at hn
    cases h1 : get ps' "start" with
    | throws => rfl
    | ub => exact absurd h1 (hnub _)
    | ok a =>
      simp only [Outcome.bind_ok]
      cases h2 : get ps' "end" with
      | throws => rfl
      | ub => exact absurd h2 (hnub _)
      | ok b =>
        simp only [Outcome.bind_ok]
        cases h3 : get ps' "sample" with
        | throws => rfl
        | ub => exact absurd h3 (hnub _)
        | ok c =>
          simp only [Outcome.bind_ok]
          cases h4 : get ps' "verbosity" with
          | throws => rfl
          | ub => exact absurd h4 (hnub _)
          | ok d =>
            simp only [Outcome.bind_ok]
            cases h5 : get ps' "threads" with
            | throws => rfl
            | ub => exact absurd h5 (hnub _)
            | ok e =>
              exfalso
              rcases hn with rfl | rfl | rfl | rfl | rfl
              · rw [h3] at hg; cases hg
              · rw [h1] at hg; cases hg
              · rw [h2] at hg; cases hg
              · rw [h4] at hg; cases hg
              · rw [h5] at hg; cases hg
  exact ⟨hc, by unfold simpleExperiment; rw [hc]; rfl⟩

example : ∃ ps, addConstant (fresh false) "end" (.int 100) = .ok ps ∧ read ps "end" = .ok (.int 100) ∧ construct ps = .throws := ⟨_, rfl, by decide +kernel, by decide +kernel⟩

/-- **C164 fails for large samples:** a model with a sample that has more than 32 bits can be constructed, and `simple_experiment` fails. -/
theorem C164_counterexample_sample (release : Bool) (n : Nat) (h1 : 2 ^ 32 ≤ n) (h2 : n < 2 ^ 64) :
    ∃ ps m, addConstant (fresh release) "sample" (.numpyUnsigned n) = .ok ps ∧ construct ps = .ok m ∧ m.sample = n ∧ simpleExperiment ps = .throws := by
  have ha : addConstant (fresh release) "sample" (.numpyUnsigned n) = .ok (assign (fresh release) "sample" (.uint64 n)) := by
    rw [addConstant, make_unsigned n h2, Outcome.bind_ok]
  have hr : read (assign (fresh release) "sample" (.uint64 n)) "sample" = .ok (.int n) := by simp [read, lookup_assign]
  have hc : construct (assign (fresh release) "sample" (.uint64 n)) = .ok ⟨0, 1, 0, n, (if release then 0 else 1), max 1 (if release then 0 else 1)⟩ := by
    cases release <;> rfl
  refine ⟨_, _, ha, hc, rfl, ?_⟩
  rw [simpleExperiment, hc, Outcome.bind_ok, hr, Outcome.bind_ok]
  exact if_neg (fun h => by omega)

/-- **C164, seeds.** For samples of 32 bits `simple_experiment` gives a model with that sample, and the random numbers of `numpy` have the same seed. -/
theorem C164_seed_partial (ps : Parameters) (m : Model) (hm : construct ps = .ok m) (hs : m.sample < 2 ^ 32) : simpleExperiment ps = .ok (m, m.sample) := by
  have hg : get ps "sample" = .ok m.sample := by
    unfold construct at hm
    cases h1 : get ps "start" with
    | ok a =>
      rw [h1] at hm; simp only [Outcome.bind_ok] at hm
      cases h2 : get ps "end" with
      | ok b =>
        rw [h2] at hm; simp only [Outcome.bind_ok] at hm
        cases h3 : get ps "sample" with
        | ok c =>
          rw [h3] at hm; simp only [Outcome.bind_ok] at hm
          cases h4 : get ps "verbosity" with
          | ok d =>
            rw [h4] at hm; simp only [Outcome.bind_ok] at hm
            cases h5 : get ps "threads" with
            | ok e => rw [h5] at hm; simp only [Outcome.bind_ok] at hm; injection hm with hm; subst hm; rfl
            | throws => rw [h5] at hm; cases hm
            | ub => rw [h5] at hm; cases hm
          | throws => rw [h4] at hm; cases hm
          | ub => rw [h4] at hm; cases hm
        | throws => rw [h3] at hm; cases hm
        | ub => rw [h3] at hm; cases hm
      | throws => rw [h2] at hm; cases hm
      | ub => rw [h2] at hm; cases hm
    | throws => rw [h1] at hm; cases hm
    | ub => rw [h1] at hm; cases hm
  have hr : read ps "sample" = .ok (.int m.sample) := by
    unfold get at hg
    unfold read
    split at hg
    · rename_i n heq
      injection hg with hg
      rw [heq, hg]
    · cases hg
  rw [simpleExperiment, hm, Outcome.bind_ok, hr, Outcome.bind_ok]
  exact (if_pos (by omega)).trans (by rw [Int.toNat_natCast])

example : ∃ m, construct (fresh false) = .ok m ∧ m.sample < 2 ^ 32 := ⟨⟨0, 1, 0, 0, 1, 1⟩, by decide +kernel, by decide⟩

end Esl.Experiment
