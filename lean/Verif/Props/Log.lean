import Verif.Model.Log
/-! C110: what a log keeps; C111: threads that log; C112: the location that is shown. -/
namespace Esl.Log

/-! ## Specification -/

/-- Severities, from least to most severe. -/
def Spec.atLeast : Severity → Severity → Prop
  | .trace, _ => True
  | .notice, l => l ≠ .trace
  | .warning, l => l = .warning ∨ l = .errorlog
  | .errorlog, l => l = .errorlog

instance (a b : Severity) : Decidable (Spec.atLeast a b) := by cases a <;> unfold Spec.atLeast <;> infer_instance

/-- The line that a message should leave in the log: severity and location in parentheses, and the values. -/
def Spec.line : Message → List Char
  | .static level (some f) n texts => ['('] ++ level.render ++ [',', ' '] ++ shown f ++ ['['] ++ Nat.toDigits 10 n ++ [']', ')', ' '] ++ texts.flatten
  | .static level none _ texts => ['('] ++ level.render ++ [')', ' '] ++ texts.flatten
  | .dynamic level texts => ['('] ++ level.render ++ [')', ' '] ++ texts.flatten

def Spec.level : Message → Severity
  | .static level _ _ _ => level
  | .dynamic level _ => level

/-- The severity is known when compiling. -/
def Spec.Static : Message → Prop
  | .static _ _ _ _ => True
  | .dynamic _ _ => False

/-! ## The filter -/

theorem atLeast_iff (f l : Severity) : Spec.atLeast f l ↔ ¬ l.toNat < f.toNat := by
  cases f <;> cases l <;> simp [Spec.atLeast, Severity.toNat]

theorem writeAll_eq (release : Bool) (c : Channel) (s : Streams) (texts : List (List Char)) :
    writeAll release c s texts = ⟨if c.kept then s.buffer ++ texts.flatten else s.buffer, if release then s.console else s.console ++ texts.flatten⟩ := by
  induction texts generalizing s with
  | nil => cases c.kept <;> cases release <;> simp [writeAll]
  | cons t ts ih =>
    have : writeAll release c s (t :: ts) = writeAll release c (write release c s t) ts := rfl
    rw [this, ih]
    cases hk : c.kept <;> cases release <;> simp [write, hk]

theorem logMessage_static (release : Bool) (filter : Severity) (s : Streams) (level : Severity) (file : Option (List Char)) (n : Nat) (texts : List (List Char)) :
    logMessage release filter s (.static level file n texts) =
      if Spec.atLeast filter level then
        ⟨s.buffer ++ Spec.line (.static level file n texts), if release then s.console else s.console ++ Spec.line (.static level file n texts)⟩
      else ⟨s.buffer, if release then s.console else s.console ++ texts.flatten⟩ := by
  by_cases h : level.toNat < filter.toNat
  · have h' : ¬ Spec.atLeast filter level := fun hh => (atLeast_iff _ _).1 hh h
    rw [if_neg h']
    simp only [logMessage, getStatic, if_pos h, writeAll_eq]
    rfl
  · rw [if_pos ((atLeast_iff _ _).2 h)]
    simp only [logMessage, getStatic, if_neg h, writeAll_eq]
    cases file <;> cases release <;> simp [tag, Spec.line]

/-- **C110.** Of messages with a severity that is known when compiling, the log keeps exactly those that are not below its filter, in order, each with its severity and location; in a release build nothing is shown on the console. -/
theorem C110_kept (release : Bool) (filter : Severity) (ms : List Message) (hs : ∀ m ∈ ms, Spec.Static m) (s : Streams) :
    (ms.foldl (logMessage release filter) s).buffer = s.buffer ++ (ms.filter fun m => Spec.atLeast filter (Spec.level m)).flatMap Spec.line ∧
    (release = true → (ms.foldl (logMessage release filter) s).console = s.console) := by
  induction ms generalizing s with
  | nil => simp
  | cons m ms ih =>
    have hm := hs m List.mem_cons_self
    cases m with
    | dynamic l t => exact absurd hm id
    | static level file n texts =>
      rw [List.foldl_cons, logMessage_static, List.filter_cons]
      by_cases h : Spec.atLeast filter level
      · have hd : decide (Spec.atLeast filter (Spec.level (.static level file n texts))) = true := decide_eq_true h
        rw [if_pos h, if_pos hd, List.flatMap_cons]
        obtain ⟨h1, h2⟩ := ih (fun m hm => hs m (List.mem_cons_of_mem _ hm)) ⟨s.buffer ++ Spec.line (.static level file n texts), if release then s.console else s.console ++ Spec.line (.static level file n texts)⟩
        refine ⟨by rw [h1]; simp, fun hr => ?_⟩
        rw [h2 hr]; simp [hr]
      · have hd : ¬ decide (Spec.atLeast filter (Spec.level (.static level file n texts))) = true := fun hd => h (of_decide_eq_true hd)
        rw [if_neg h, if_neg hd]
        obtain ⟨h1, h2⟩ := ih (fun m hm => hs m (List.mem_cons_of_mem _ hm)) ⟨s.buffer, if release then s.console else s.console ++ texts.flatten⟩
        refine ⟨by rw [h1], fun hr => ?_⟩
        rw [h2 hr]; simp [hr]

/-- **C110.** The main log keeps everything in a development build, and warnings and errors in a release build. -/
theorem C110_main (level : Severity) : Spec.atLeast (mainFilter false) level ∧ (Spec.atLeast (mainFilter true) level ↔ level = .warning ∨ level = .errorlog) := by
  cases level <;> decide

/-- **C110 is violated** on the console: in a development build, every message below the filter is shown there all the same, and without severity and location. -/
theorem C110_counterexample_console (filter level : Severity) (file : Option (List Char)) (n : Nat) (texts : List (List Char)) (s : Streams) (h : ¬ Spec.atLeast filter level) :
    logMessage false filter s (.static level file n texts) = ⟨s.buffer, s.console ++ texts.flatten⟩ := by
  rw [logMessage_static, if_neg h]; rfl

/-- **C110 is violated** for a severity that is known only at run time: the message is kept without its severity. -/
theorem C110_counterexample_dynamic (release : Bool) (filter level : Severity) (texts : List (List Char)) (s : Streams) (h : Spec.atLeast filter level) :
    (logMessage release filter s (.dynamic level texts)).buffer = s.buffer ++ texts.flatten ∧ texts.flatten ≠ Spec.line (.dynamic level texts) := by
  constructor
  · simp only [logMessage, getDynamic, if_neg ((atLeast_iff _ _).1 h), writeAll_eq]
    rfl
  · intro e
    have := congrArg List.length e
    simp [Spec.line] at this
    omega

/-- **C110, severities at run time.** A message below the filter is not kept, and in a release build it is not shown. -/
theorem C110_dynamic_filtered (release : Bool) (filter level : Severity) (texts : List (List Char)) (s : Streams) (h : ¬ Spec.atLeast filter level) :
    (logMessage release filter s (.dynamic level texts)).buffer = s.buffer ∧ (release = true → (logMessage release filter s (.dynamic level texts)).console = s.console) := by
  have h' : level.toNat < filter.toNat := by
    by_cases hc : level.toNat < filter.toNat
    · exact hc
    · exact absurd ((atLeast_iff _ _).2 hc) h
  simp only [logMessage, getDynamic, if_pos h', writeAll_eq]
  exact ⟨by simp, fun hr => by simp [hr]⟩

example : (logMessage true .warning ⟨[], []⟩ (.static .errorlog (some ['/', 'e', 's', 'l', '/', 'a', '.', 'c']) 12 [['x'], ['\n']])).buffer =
    ['(', 'e', 'r', 'r', 'o', 'r', ',', ' ', 'a', '.', 'c', '[', '1', '2', ']', ')', ' ', 'x', '\n'] := by decide

example : ¬ Spec.atLeast .warning .notice := by decide

/-! ## The location -/

theorem rfind_none {p s : List Char} (h : rfind p s = none) (a b : List Char) : s ≠ a ++ p ++ b := by
  induction s generalizing a with
  | nil =>
    intro e
    have : p = [] := by
      have := congrArg List.length e
      simp at this
      exact List.eq_nil_of_length_eq_zero (by omega)
    subst this
    simp [rfind] at h
  | cons c cs ih =>
    simp only [rfind] at h
    cases hr : rfind p cs with
    | some k => rw [hr] at h; cases h
    | none =>
      rw [hr] at h
      cases a with
      | cons x a =>
        intro e
        simp only [List.cons_append, List.cons.injEq] at e
        exact ih hr a e.2
      | nil =>
        intro e
        rw [List.nil_append] at e
        have : p.isPrefixOf (c :: cs) = true := by
          rw [List.isPrefixOf_iff_prefix]
          exact ⟨b, e.symm⟩
        rw [this] at h
        cases h

theorem rfind_some {p s : List Char} {k : Nat} (h : rfind p s = some k) : ∃ a b, s = a ++ p ++ b ∧ a.length = k ∧ ∀ a' b', s = a' ++ p ++ b' → a'.length ≤ k := by
  induction s generalizing k with
  | nil =>
    simp only [rfind] at h
    cases hp : p.isPrefixOf [] with
    | false => rw [hp] at h; cases h
    | true =>
      rw [hp] at h
      have hk : 0 = k := Option.some.inj h
      rw [List.isPrefixOf_iff_prefix] at hp
      obtain ⟨b, hb⟩ := hp
      refine ⟨[], b, by simp [hb], hk, ?_⟩
      intro a' b' e
      have := congrArg List.length e
      simp at this
      omega
  | cons c cs ih =>
    simp only [rfind] at h
    cases hr : rfind p cs with
    | some j =>
      rw [hr] at h
      have hk : j + 1 = k := Option.some.inj h
      obtain ⟨a, b, e, hl, hm⟩ := ih hr
      refine ⟨c :: a, b, by simp [e], by simp [hl, hk], ?_⟩
      intro a' b' e'
      cases a' with
      | nil => simp
      | cons x a' =>
        simp only [List.cons_append, List.cons.injEq] at e'
        have := hm a' b' e'.2
        simp; omega
    | none =>
      rw [hr] at h
      cases hp : p.isPrefixOf (c :: cs) with
      | false => rw [hp] at h; cases h
      | true =>
        rw [hp] at h
        have hk : 0 = k := Option.some.inj h
        rw [List.isPrefixOf_iff_prefix] at hp
        obtain ⟨b, hb⟩ := hp
        refine ⟨[], b, by simp [hb], hk, ?_⟩
        intro a' b' e'
        cases a' with
        | nil => simp
        | cons x a' =>
          simp only [List.cons_append, List.cons.injEq] at e'
          exact absurd e'.2 (rfind_none hr a' b')

/-- **C112 (partial).** Of a path, the part after the last occurrence of the text `esl/` is shown. It is not only the name of a directory that counts, see below. -/
theorem C112_root_partial (file p q : List Char) (h : file = p ++ ['e', 's', 'l', '/'] ++ q) (last : ∀ p' q', file = p' ++ ['e', 's', 'l', '/'] ++ q' → q.length ≤ q'.length) : shown file = q := by
  have h4 : root = ['e', 's', 'l', '/'] := rfl
  cases hr : rfind root file with
  | none => exact absurd (h4 ▸ h) (rfind_none hr p q)
  | some k =>
    obtain ⟨a, b, e, hl, hm⟩ := rfind_some hr
    have h1 := hm p q (h4 ▸ h)
    have h2 := last a b (h4 ▸ e)
    have h3 := congrArg List.length (h.symm.trans e)
    simp only [List.length_append, h4] at h3
    have : k = p.length := by omega
    simp only [shown, hr]
    rw [h, this]
    have : p.length + root.length = (p ++ ['e', 's', 'l', '/']).length := by simp [h4]
    rw [this, List.drop_left]

/-- **C112.** Of a path without `esl/`, the name of the file is shown. -/
theorem C112_name (file d n : List Char) (hno : ∀ p q, file ≠ p ++ ['e', 's', 'l', '/'] ++ q) (hn : '/' ∉ n) (hlen : file.length < 2 ^ 64 - 1) (h : file = n ∨ file = d ++ ['/'] ++ n) :
    shown file = n := by
  have h4 : root = ['e', 's', 'l', '/'] := rfl
  cases hr : rfind root file with
  | some k =>
    obtain ⟨a, b, e, _⟩ := rfind_some hr
    exact absurd (h4 ▸ e) (hno a b)
  | none =>
    simp only [shown, hr]
    cases hs : rfind ['/'] file with
    | none =>
      have : u64 (1 + npos) = 0 := by decide
      simp only [Option.getD_none, this]
      rcases h with h | h
      · rw [h]; rfl
      · exact absurd h (rfind_none hs d n)
    | some k =>
      obtain ⟨a, b, e, hl, hm⟩ := rfind_some hs
      rcases h with h | h
      · exfalso
        apply hn
        rw [← h, e]; simp
      · have h1 := hm d n h
        have h3 := congrArg List.length (h.symm.trans e)
        have h5 := congrArg List.length e
        simp only [List.length_append, List.length_singleton] at h3 h5
        have hk : k = d.length := by
          rcases Nat.lt_or_ge d.length k with hlt | hge
          · exfalso
            have e' : d ++ (['/'] ++ n) = a ++ (['/'] ++ b) := by rw [← List.append_assoc, ← List.append_assoc]; exact h.symm.trans e
            have := List.append_eq_append_iff.1 e'
            rcases this with ⟨c, hc1, hc2⟩ | ⟨c, hc1, hc2⟩
            · cases c with
              | nil => rw [hc1] at hl; simp at hl; omega
              | cons x c =>
                simp only [List.cons_append, List.cons.injEq] at hc2
                apply hn
                have hc3 : n = c ++ '/' :: b := by simpa using hc2.2
                rw [hc3]; simp
            · rw [hc1] at hlt; simp at hlt; omega
          · omega
        have hu : u64 (1 + k) = k + 1 := by
          unfold u64
          rw [Nat.mod_eq_of_lt (by omega)]; omega
        have hne : npos ≠ k + 1 := by unfold npos; omega
        simp only [Option.getD_some, hu, if_neg hne]
        rw [h, hk]
        have : d.length + 1 = (d ++ ['/']).length := by simp
        rw [this, List.drop_left]

/-- **C112.** What is shown is always the end of the path. -/
theorem C112_suffix (file : List Char) : ∃ p, file = p ++ shown file := ⟨_, (List.take_append_drop _ file).symm⟩

/-- **C112 is violated** for a directory with a name that ends in `esl`: the location within the library loses that directory. -/
theorem C112_counterexample_directory :
    shown ("/src/esl/old_esl/engine.cpp".toList) = "engine.cpp".toList := by decide +kernel

example : shown ("/home/esl/esl/data/log.hpp".toList) = "data/log.hpp".toList ∧ shown ("/home/model/main.cpp".toList) = "main.cpp".toList ∧ shown ("main.cpp".toList) = "main.cpp".toList := by
  decide +kernel

/-! ## Threads -/

/-- The text a piece prints. -/
def Spec.text : Piece → List Char
  | .value _ t => t
  | .channelEndl => []

/-- The piece is printed to the log. -/
def Spec.kept : Piece → Bool
  | .value k _ => k
  | .channelEndl => false

/-- The pieces of one thread in a merged list. -/
def Spec.ofThread (i : Nat) (merged : List (Nat × Piece)) : List Piece := (merged.filter fun e => e.1 == i).map (·.2)

/-- What is in the streams, apart from the characters that the holder has still to write. -/
def Inv (release : Bool) (programs : List (List Piece)) (s : System) : Prop :=
  ∃ merged : List (Nat × Piece),
    (∀ i p, s.todo[i]? = some p → programs[i]? = some (Spec.ofThread i merged ++ p)) ∧ s.todo.length = programs.length ∧
    s.streams.buffer ++ (match s.holder with | none => [] | some (_, b, _) => b) = (merged.filter fun e => Spec.kept e.2).flatMap (fun e => Spec.text e.2) ∧
    s.streams.console ++ (match s.holder with | none => [] | some (_, _, o) => o) = if release then [] else merged.flatMap fun e => Spec.text e.2

theorem inv_start (release : Bool) (programs : List (List Piece)) : Inv release programs (start programs) := by
  refine ⟨[], ?_, rfl, rfl, ?_⟩
  · intro i p h; exact h
  · cases release <;> rfl

theorem inv_step (release : Bool) (programs : List (List Piece)) (s s' : System) (i : Nat) (h : Inv release programs s) (hs : stepThread release s i = .ok s') : Inv release programs s' := by
  obtain ⟨merged, h1, hlen, h2, h3⟩ := h
  obtain ⟨todo, holder, buffer, console⟩ := s
  have same : Inv release programs ⟨todo, holder, ⟨buffer, console⟩⟩ := ⟨merged, h1, hlen, h2, h3⟩
  simp only at h1 h2 h3 hlen
  cases holder with
  | none =>
    simp only [stepThread] at hs
    cases ht : todo[i]? with
    | none => simp only [ht] at hs; injection hs with hs; rw [← hs]; exact same
    | some p =>
      cases p with
      | nil => simp only [ht] at hs; injection hs with hs; rw [← hs]; exact same
      | cons piece rest =>
        cases piece with
        | channelEndl => simp only [ht] at hs; cases hs
        | value kept text =>
          simp only [ht] at hs
          injection hs with hs
          rw [← hs]
          refine ⟨merged ++ [(i, .value kept text)], ?_, by simpa using hlen, ?_, ?_⟩
          · intro j q hq
            simp only at hq
            by_cases hij : i = j
            · subst hij
              have hi : i < todo.length := (List.getElem?_eq_some_iff.1 ht).1
              rw [List.getElem?_set_self hi] at hq
              have hq : rest = q := Option.some.inj hq
              subst hq
              rw [h1 i _ ht]
              simp [Spec.ofThread]
            · rw [List.getElem?_set_ne hij] at hq
              rw [h1 j q hq]
              have : (i == j) = false := by simpa using hij
              simp [Spec.ofThread, this]
          · simp only [List.append_nil] at h2
            cases kept <;> simp [h2, Spec.kept, Spec.text]
          · simp only [List.append_nil] at h3
            cases release <;> simp [h3, Spec.text]
  | some t =>
    obtain ⟨j, b, o⟩ := t
    cases b with
    | cons c b =>
      simp only [stepThread] at hs
      by_cases hij : i = j
      · rw [if_pos hij] at hs
        injection hs with hs
        rw [← hs]
        exact ⟨merged, h1, hlen, by simpa using h2, h3⟩
      · rw [if_neg hij] at hs; injection hs with hs; rw [← hs]; exact same
    | nil =>
      cases o with
      | cons c o =>
        simp only [stepThread] at hs
        by_cases hij : i = j
        · rw [if_pos hij] at hs
          injection hs with hs
          rw [← hs]
          exact ⟨merged, h1, hlen, h2, by simpa using h3⟩
        · rw [if_neg hij] at hs; injection hs with hs; rw [← hs]; exact same
      | nil =>
        simp only [stepThread] at hs
        by_cases hij : i = j
        · rw [if_pos hij] at hs
          injection hs with hs
          rw [← hs]
          exact ⟨merged, h1, hlen, h2, h3⟩
        · rw [if_neg hij] at hs; injection hs with hs; rw [← hs]; exact same

/-- **C111.** Threads that insert values into channels, with any schedule: whenever no thread is inside an insertion, the log (and the console in a development build) has the texts of a merge of what the
threads have inserted, with the values of each thread in its order and each value in one piece. -/
theorem C111_pieces (release : Bool) (programs : List (List Piece)) (schedule : List Nat) (s : System) (h : runThreads release (start programs) schedule = .ok s) (hf : s.holder = none) :
    ∃ merged : List (Nat × Piece),
      (∀ (i : Nat) (p : List Piece), s.todo[i]? = some p → programs[i]? = some (Spec.ofThread i merged ++ p)) ∧
      s.todo.length = programs.length ∧
      s.streams.buffer = (merged.filter fun e => Spec.kept e.2).flatMap (fun e => Spec.text e.2) ∧
      s.streams.console = if release then [] else merged.flatMap fun e => Spec.text e.2 := by
  have key : ∀ (schedule : List Nat) (s0 : System), Inv release programs s0 → runThreads release s0 schedule = .ok s → Inv release programs s := by
    intro schedule
    induction schedule with
    | nil => intro s0 h0 h; injection h with h; rw [← h]; exact h0
    | cons i is ih =>
      intro s0 h0 h
      simp only [runThreads] at h
      obtain ⟨s1, h1, h2⟩ := Outcome.bind_eq_ok.1 h
      exact ih s1 (inv_step release programs s0 s1 i h0 h1) h2
  obtain ⟨merged, h1, h2, h3, h4⟩ := key schedule _ (inv_start release programs) h
  rw [hf] at h3 h4
  refine ⟨merged, h1, h2, ?_, ?_⟩
  · rw [← h3]; simp
  · rw [← h4]; simp

/-- **C111.** There is always a thread that can go on: if the mutex is locked, its holder takes a step that brings it closer to unlocking. -/
theorem C111_progress (release : Bool) (s : System) (j : Nat) (b o : List Char) (h : s.holder = some (j, b, o)) :
    ∃ s', runThreads release s (List.replicate (b.length + o.length + 1) j) = .ok s' ∧ s'.holder = none ∧
      s'.streams = ⟨s.streams.buffer ++ b, s.streams.console ++ o⟩ ∧ s'.todo = s.todo := by
  obtain ⟨todo, holder, buffer, console⟩ := s
  simp only at h
  subst h
  induction b generalizing buffer with
  | cons c b ih =>
    obtain ⟨s', h1, h2, h3, h4⟩ := ih (buffer ++ [c])
    refine ⟨s', ?_, h2, by simpa using h3, h4⟩
    have : (c :: b).length + o.length + 1 = (b.length + o.length + 1) + 1 := by simp; omega
    rw [this, List.replicate_succ]
    simp only [runThreads, stepThread, if_true, Outcome.bind_ok]
    exact h1
  | nil =>
    induction o generalizing console with
    | cons c o ih =>
      obtain ⟨s', h1, h2, h3, h4⟩ := ih (console ++ [c])
      refine ⟨s', ?_, h2, by simpa using h3, h4⟩
      have : ([] : List Char).length + (c :: o).length + 1 = (([] : List Char).length + o.length + 1) + 1 := by simp
      rw [this, List.replicate_succ]
      simp only [runThreads, stepThread, if_true, Outcome.bind_ok]
      exact h1
    | nil =>
      refine ⟨⟨todo, none, ⟨buffer, console⟩⟩, ?_, rfl, by simp, rfl⟩
      simp [runThreads, stepThread, Outcome.bind_ok]

/-- **C111 is violated** for lines: two threads that each insert a text and a line break can leave their texts on one line. -/
theorem C111_counterexample_lines :
    ∃ schedule s, runThreads true (start [[.value true ['a'], .value true ['\n']], [.value true ['b'], .value true ['\n']]]) schedule = .ok s ∧
      s.holder = none ∧ s.todo = [[], []] ∧ s.streams.buffer = ['a', 'b', '\n', '\n'] :=
  ⟨[0, 0, 0, 1, 1, 1, 0, 0, 0, 1, 1, 1], _, rfl, by decide⟩

/-- **C111 is violated** for the library's own line break: a thread that inserts `channel::endl` has undefined behaviour (it waits for itself), whatever else happens. -/
theorem C111_counterexample_endl (release : Bool) (s : System) (i : Nat) (rest : List Piece) (hf : s.holder = none) (h : s.todo[i]? = some (.channelEndl :: rest)) : stepThread release s i = .ub := by
  simp only [stepThread, hf, h]

example : ∃ s, runThreads false (start [[.value true ['a', 'b']], [.value false ['c']]]) [0, 1, 0, 0, 0, 0, 0, 1, 1, 1] = .ok s ∧ s.holder = none ∧ s.streams = ⟨['a', 'b'], ['a', 'b', 'c']⟩ :=
  ⟨_, rfl, by decide⟩

/-- The hypotheses of `C111_progress`, and of `C111_counterexample_endl`. -/
example : runThreads true ⟨[[], []], some (1, ['b'], []), ⟨['a'], []⟩⟩ [1, 1] = .ok ⟨[[], []], none, ⟨['a', 'b'], []⟩⟩ ∧ stepThread true (start [[.channelEndl]]) 0 = .ub := by decide

end Esl.Log
