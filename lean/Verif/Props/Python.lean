import Verif.Model.Python
import Verif.Props.Log
/-!
Properties of the Python interface: C113–C120.
-/
namespace Esl.Python
open Esl.Log (Severity Streams)

/-! ## C113: views of containers -/

/-- Keys in increasing order, each once. -/
def Spec.Ordered {α : Type} (l : List (Nat × α)) : Prop := l.Pairwise fun a b => a.1 < b.1

/-- The entries of a key. -/
def Spec.entries {α : Type} (l : List (Nat × α)) (k : Nat) : List α := l.filterMap fun e => if e.1 = k then some e.2 else none

theorem getItem_eq {α : Type} (l : List (Nat × α)) (k : Nat) : getItem l k = match Spec.entries l k with | [] => .throws | v :: _ => .ok v := by
  induction l with
  | nil => rfl
  | cons e l ih =>
    obtain ⟨a, v⟩ := e
    by_cases h : a = k
    · subst h; simp [getItem, Spec.entries]
    · have h' : (a == k) = false := by simpa using h
      have e1 : getItem ((a, v) :: l) k = getItem l k := by simp [getItem, List.find?_cons, h']
      have e2 : Spec.entries ((a, v) :: l) k = Spec.entries l k := by simp [Spec.entries, h]
      rw [e1, e2, ih]

theorem entries_cons {α : Type} (e : Nat × α) (l : List (Nat × α)) (k : Nat) : Spec.entries (e :: l) k = if e.1 = k then e.2 :: Spec.entries l k else Spec.entries l k := by
  by_cases h : e.1 = k <;> simp [Spec.entries, h]

theorem entries_nil_iff {α : Type} (l : List (Nat × α)) (k : Nat) : Spec.entries l k = [] ↔ k ∉ keys l := by
  induction l with
  | nil => simp [Spec.entries, keys]
  | cons e l ih =>
    rw [entries_cons]
    by_cases h : e.1 = k
    · simp [h, keys]
    · rw [if_neg h, ih]; simp [keys, Ne.symm h]

theorem entries_insert {α : Type} (l : List (Nat × α)) (k j : Nat) (v : α) (h : k ∉ keys l) :
    Spec.entries (insertSorted k v l) j = if k = j then [v] else Spec.entries l j := by
  induction l with
  | nil => by_cases e : k = j <;> simp [insertSorted, Spec.entries, e]
  | cons x l ih =>
    have hx : x.1 ≠ k := by intro e; exact h (by simp [keys, e])
    have hl : k ∉ keys l := by intro e; apply h; simp [keys] at e ⊢; exact Or.inr e
    have hnil := (entries_nil_iff l k).2 hl
    simp only [insertSorted]
    split
    · rw [entries_cons]
      by_cases e : k = j
      · subst e; rw [if_pos rfl, if_pos rfl, entries_cons, if_neg hx, hnil]
      · rw [if_neg e, if_neg e]
    · rw [entries_cons, ih hl, entries_cons]
      by_cases e : k = j
      · subst e; rw [if_neg hx]; simp
      · rw [if_neg e, if_neg e]

theorem mem_insert {α : Type} (l : List (Nat × α)) (k : Nat) (v : α) (e : Nat × α) : e ∈ insertSorted k v l ↔ e = (k, v) ∨ e ∈ l := by
  induction l with
  | nil => simp [insertSorted]
  | cons x l ih =>
    simp only [insertSorted]
    split
    · simp
    · simp only [List.mem_cons, ih]
      constructor
      · rintro (h | h | h)
        · exact Or.inr (Or.inl h)
        · exact Or.inl h
        · exact Or.inr (Or.inr h)
      · rintro (h | h | h)
        · exact Or.inr (Or.inl h)
        · exact Or.inl h
        · exact Or.inr (Or.inr h)

theorem ordered_insert {α : Type} (l : List (Nat × α)) (k : Nat) (v : α) (h : k ∉ keys l) (ho : Spec.Ordered l) : Spec.Ordered (insertSorted k v l) := by
  induction l with
  | nil => simp [insertSorted, Spec.Ordered]
  | cons x l ih =>
    have hx : x.1 ≠ k := by intro e; exact h (by simp [keys, e])
    have hl : k ∉ keys l := by intro e; apply h; simp [keys] at e ⊢; exact Or.inr e
    have ho' := List.pairwise_cons.1 ho
    simp only [insertSorted]
    split
    next hk =>
      refine List.pairwise_cons.2 ⟨?_, ho⟩
      intro y hy
      rcases List.mem_cons.1 hy with rfl | hy
      · exact hk
      · exact Nat.lt_trans hk (ho'.1 y hy)
    next hk =>
      refine List.pairwise_cons.2 ⟨?_, ih hl ho'.2⟩
      intro y hy
      rcases (mem_insert l k v y).1 hy with rfl | hy
      · show x.1 < k; omega
      · exact ho'.1 y hy

theorem any_key {α : Type} (l : List (Nat × α)) (k : Nat) : (l.any fun e => e.1 == k) = true ↔ k ∈ keys l := by
  induction l with
  | nil => simp [keys]
  | cons x l ih =>
    rw [List.any_cons, Bool.or_eq_true, ih]
    simp only [keys, List.map_cons, List.mem_cons, beq_iff_eq]
    exact or_congr_left ⟨Eq.symm, Eq.symm⟩

theorem entries_assign {α : Type} (l : List (Nat × α)) (k j : Nat) (v : α) :
    Spec.entries (multimapSet l k v) j = if k = j then List.replicate (Spec.entries l j).length v else Spec.entries l j := by
  induction l with
  | nil => by_cases h : k = j <;> simp [multimapSet, Spec.entries, h]
  | cons x l ih =>
    have e : multimapSet (x :: l) k v = (if x.1 = k then (x.1, v) else x) :: multimapSet l k v := rfl
    rw [e, entries_cons, ih, entries_cons]
    by_cases hk : x.1 = k
    · rw [if_pos hk]
      by_cases hj : k = j
      · subst hj; simp [hk, List.replicate_succ]
      · have : x.1 ≠ j := by omega
        simp [hj, this]
    · rw [if_neg hk]
      by_cases hj : k = j
      · subst hj; simp [hk]
      · simp [hj]

theorem keys_assign {α : Type} (l : List (Nat × α)) (k : Nat) (v : α) : keys (multimapSet l k v) = keys l := by
  induction l with
  | nil => rfl
  | cons x l ih =>
    have e : multimapSet (x :: l) k v = (if x.1 = k then (x.1, v) else x) :: multimapSet l k v := rfl
    rw [e]
    simp only [keys, List.map_cons] at ih ⊢
    rw [ih]; split <;> rfl

theorem ordered_of_keys {α : Type} (l : List (Nat × α)) : Spec.Ordered l ↔ (keys l).Pairwise (· < ·) := by
  rw [keys, List.pairwise_map]; rfl

theorem mapSet_entries {α : Type} (l : List (Nat × α)) (k j : Nat) (v : α) (ho : Spec.Ordered l) :
    Spec.entries (mapSet l k v) j = if k = j then [v] else Spec.entries l j := by
  unfold mapSet
  by_cases h : k ∈ keys l
  · rw [if_pos ((any_key l k).2 h)]
    have e : (l.map fun e => if e.1 = k then (e.1, v) else e) = multimapSet l k v := rfl
    rw [e, entries_assign]
    by_cases hj : k = j
    · subst hj
      rw [if_pos rfl, if_pos rfl]
      have : (Spec.entries l k).length = 1 := by
        induction l with
        | nil => simp [keys] at h
        | cons x l ih =>
          have ho' := List.pairwise_cons.1 ho
          rw [entries_cons]
          by_cases hx : x.1 = k
          · have : Spec.entries l k = [] := by
              rw [entries_nil_iff]; intro hm
              obtain ⟨y, hy, e⟩ := List.mem_map.1 hm
              have := ho'.1 y hy; omega
            rw [if_pos hx, this]; rfl
          · rw [if_neg hx]
            refine ih ho'.2 ?_ rfl
            simp only [keys, List.map_cons, List.mem_cons] at h
            exact h.resolve_left fun e => hx e.symm
      rw [this]; rfl
    · rw [if_neg hj, if_neg hj]
  · rw [if_neg (by rw [any_key]; exact h), entries_insert l k j v h]

/-- **C113** (maps, partial for inboxes): the Python view of a map is a dictionary. After `d[k] = v` the key `k` has the value `v`, other keys are as before, and keys remain in order; after `del d[k]` the key is gone and
other keys are as before. `k in d` tells whether `d[k]` raises an exception, and `keys` and `values` are those of the entries. -/
theorem C113_map {α : Type} (l : List (Nat × α)) (k : Nat) (v : α) (ho : Spec.Ordered l) :
    Spec.Ordered (mapSet l k v) ∧ getItem (mapSet l k v) k = .ok v ∧ (∀ j, j ≠ k → getItem (mapSet l k v) j = getItem l j) ∧
    Spec.Ordered (deleteItem l k) ∧ getItem (deleteItem l k) k = .throws ∧ (∀ j, j ≠ k → getItem (deleteItem l k) j = getItem l j) ∧
    (contains l k = true ↔ ∃ w, getItem l k = .ok w) ∧ (keys l).zip (values l) = l ∧ (k ∈ keys l ↔ contains l k = true) := by
  have hc : k ∈ keys l ↔ contains l k = true := by
    unfold contains
    rw [List.find?_isSome]
    simp [keys]
  refine ⟨?_, ?_, ?_, ?_, ?_, ?_, ?_, ?_, hc⟩
  · unfold mapSet
    split
    next h =>
      have e : (l.map fun e => if e.1 = k then (e.1, v) else e) = multimapSet l k v := rfl
      rw [e, ordered_of_keys, keys_assign, ← ordered_of_keys]; exact ho
    next h => exact ordered_insert l k v (fun hh => h ((any_key l k).2 hh)) ho
  · rw [getItem_eq, mapSet_entries l k k v ho, if_pos rfl]
  · intro j hj
    rw [getItem_eq, mapSet_entries l k j v ho, if_neg (Ne.symm hj), ← getItem_eq]
  · exact List.Pairwise.filter _ ho
  · unfold getItem deleteItem
    have : (l.filter fun e => !(e.1 == k)).find? (fun e => e.1 == k) = none := by
      rw [List.find?_eq_none]; intro e he; simpa using (List.mem_filter.1 he).2
    rw [this]
  · intro j hj
    unfold getItem deleteItem
    have : (l.filter fun e => !(e.1 == k)).find? (fun e => e.1 == j) = l.find? fun e => e.1 == j := by
      rw [List.find?_filter]
      congr 1; funext e
      by_cases h : e.1 = j
      · simp [h, hj]
      · simp [h]
    rw [this]
  · unfold contains getItem
    cases hx : l.find? fun e => e.1 == k <;> simp
  · clear ho hc
    induction l with
    | nil => rfl
    | cons x l ih => simp only [keys, values, List.map_cons, List.zip_cons_cons] at ih ⊢; rw [ih]

/-- **C113** for inboxes, partial: assignment changes no key, and for a time with exactly one message it replaces that message and no other. -/
theorem C113_inbox_partial {α : Type} (l : List (Nat × α)) (k : Nat) (v w : α) (h : Spec.entries l k = [w]) :
    keys (multimapSet l k v) = keys l ∧ Spec.entries (multimapSet l k v) k = [v] ∧ ∀ j, j ≠ k → Spec.entries (multimapSet l k v) j = Spec.entries l j := by
  refine ⟨keys_assign l k v, ?_, ?_⟩
  · rw [entries_assign, if_pos rfl, h]; rfl
  · intro j hj; rw [entries_assign, if_neg (Ne.symm hj)]

/-- **C113 is violated** by inboxes: `inbox[k] = m` for a time without messages has no effect, so `m` is not in the inbox after. -/
theorem C113_counterexample_missing {α : Type} (l : List (Nat × α)) (k : Nat) (v : α) (h : k ∉ keys l) :
    multimapSet l k v = l ∧ getItem (multimapSet l k v) k = .throws := by
  have e : multimapSet l k v = l := by
    unfold multimapSet
    conv => rhs; rw [← List.map_id l]
    apply List.map_congr_left
    intro x hx
    have : x.1 ≠ k := fun e => h (by simp only [keys, List.mem_map]; exact ⟨x, hx, e⟩)
    simp [this]
  rw [e, getItem_eq, (entries_nil_iff l k).2 h]
  exact ⟨rfl, rfl⟩

/-- **C113 is violated** by inboxes: for a time with several messages, the assignment makes all of them the same message; the others are lost. -/
theorem C113_counterexample_several {α : Type} (l : List (Nat × α)) (k : Nat) (v : α) : Spec.entries (multimapSet l k v) k = List.replicate (Spec.entries l k).length v := by
  rw [entries_assign, if_pos rfl]

example : mapSet [(1, 'a'), (5, 'b')] 3 'c' = [(1, 'a'), (3, 'c'), (5, 'b')] ∧ mapSet [(1, 'a'), (5, 'b')] 5 'c' = [(1, 'a'), (5, 'c')] ∧
    Spec.Ordered [(1, 'a'), (5, 'b')] ∧ multimapSet [(1, 'a'), (1, 'b'), (2, 'c')] 1 'x' = [(1, 'x'), (1, 'x'), (2, 'c')] ∧ Spec.entries [(1, 'a'), (1, 'b'), (2, 'c')] 2 = ['c'] := by
  simp [mapSet, insertSorted, Spec.Ordered, multimapSet, Spec.entries]

/-! ## C114: logging -/

/-- **C114**, partial: a string that is logged from Python with severity `trace` or `notice` gives the same line as in C++, at the severity given. -/
theorem C114_low_partial (release : Bool) (s : Streams) (level : Severity) (text file : List Char) (line : Nat) (hl : line < 2 ^ 32) (h : level = .trace ∨ level = .notice) :
    logDetailed release s level false text file line = .ok (Log.logMessage release (Log.mainFilter release) s (.static level (some file) line [text, ['\n']])) := by
  have : line % 2 ^ 32 = line := Nat.mod_eq_of_lt hl
  rcases h with rfl | rfl <;> simp only [logDetailed, this] <;> rfl

/-- **C114 is violated** for warnings and errors: in a release build, where the log keeps exactly those, what is logged from Python is never kept, at any severity. -/
theorem C114_counterexample_release (s s' : Streams) (level : Severity) (fresh : Bool) (text file : List Char) (line : Nat) (h : logDetailed true s level fresh text file line = .ok s') : s' = s := by
  have key : ∀ l, l = Severity.trace ∨ l = Severity.notice → Log.logMessage true (Log.mainFilter true) s (.static l (some file) (line % 2 ^ 32) [text, ['\n']]) = s := by
    intro l hl
    rw [Log.logMessage_static, if_neg]
    · rfl
    · rcases hl with rfl | rfl <;> decide
  cases fresh with
  | true => cases level <;> simp [logDetailed] at h
  | false =>
    cases level with
    | trace => simp only [logDetailed] at h; injection h with h; rw [← h]; exact key _ (Or.inl rfl)
    | notice => simp only [logDetailed] at h; injection h with h; rw [← h]; exact key _ (Or.inr rfl)
    | warning => simp only [logDetailed] at h; injection h with h; rw [← h]; exact key _ (Or.inr rfl)
    | errorlog => simp only [logDetailed] at h; injection h with h; rw [← h]; exact key _ (Or.inr rfl)

/-- **C114 is violated** in a development build: an error is shown as a notice. -/
theorem C114_counterexample_severity (s : Streams) (text file : List Char) (line : Nat) (hl : line < 2 ^ 32) :
    logDetailed false s .errorlog false text file line = logDetailed false s .notice false text file line ∧
    ∃ s', logDetailed false s .errorlog false text file line = .ok s' ∧ s'.buffer = s.buffer ++ Log.Spec.line (.static .notice (some file) line [text, ['\n']]) := by
  have : line % 2 ^ 32 = line := Nat.mod_eq_of_lt hl
  refine ⟨rfl, _, rfl, ?_⟩
  rw [this, Log.logMessage_static, if_pos (by decide)]

/-- **C114 is violated** for objects that are not strings: the text is read after it has been destroyed. -/
theorem C114_counterexample_object (release : Bool) (s : Streams) (level : Severity) (text file : List Char) (line : Nat) : logDetailed release s level true text file line = .ub := by
  cases level <;> rfl

example : logDetailed false ⟨[], []⟩ .warning false ['x'] ['m', '.', 'p', 'y'] 7 =
    .ok ⟨['(', 'n', 'o', 't', 'i', 'c', 'e', ',', ' ', 'm', '.', 'p', 'y', '[', '7', ']', ')', ' ', 'x', '\n'], ['(', 'n', 'o', 't', 'i', 'c', 'e', ',', ' ', 'm', '.', 'p', 'y', '[', '7', ']', ')', ' ', 'x', '\n']⟩ := by
  decide

/-! ## C115: codes -/

/-- **C115** (countries): the code of a country is its two letters, and different countries have different codes. -/
theorem C115_country (c d : List Nat) (hc : c.length = 2) (hd : d.length = 2) : countryCode c = .ok c ∧ (countryCode c = countryCode d → c = d) := by
  have h : ∀ c : List Nat, c.length = 2 → countryCode c = .ok c := by
    intro c hc
    match c, hc with
    | [a, b], _ => rfl
  refine ⟨h c hc, ?_⟩
  rw [h c hc, h d hd]
  intro e; injection e

/-- **C115** (codes of securities): the code that is read is the one that was written, if it has nine characters; the issuer stays as it is. -/
theorem C115_isin_partial (i : Codes.Isin) (code : List Nat) (h : code.length = 9) : ∃ i', setIsinCode i code = .ok i' ∧ getIsinCode i' = code ∧ i'.issuer = i.issuer := by
  refine ⟨{ i with code := code }, ?_, rfl, rfl⟩
  have : (code.drop 0).take (9 - 0) = code := by simp [← h]
  simp only [setIsinCode, Codes.toArray, h, Nat.lt_irrefl, if_false, Outcome.bind_ok, this]

/-- **C115 is violated** for shorter codes of securities: reading outside the string. -/
theorem C115_counterexample_isin (i : Codes.Isin) (code : List Nat) (h : code.length < 9) : setIsinCode i code = .ub := by
  simp [setIsinCode, Codes.toArray, h]

/-- **C115 is violated** for currencies: the code is never the three letters of the currency, and is the same for all currencies of a country. -/
theorem C115_counterexample_currency (c d : List Nat) (hc : c.length = 3) (hd : d.length = 3) :
    currencyCode c ≠ .ok c ∧ (c.take 2 = d.take 2 → currencyCode c = currencyCode d) := by
  match c, hc, d, hd with
  | [a, b, c], _, [a', b', c'], _ =>
    constructor
    · simp [currencyCode]
    · intro h; simp only [List.take_succ_cons, List.take_zero] at h; simp only [currencyCode]; rw [h]

/-- Among them the US dollar and the US dollar (next day), both of which the library defines, and the Swiss franc and the WIR franc. -/
theorem C115_counterexample_currencies : currencyCode (Codes.bytes "USD") = currencyCode (Codes.bytes "USN") ∧ currencyCode (Codes.bytes "CHF") = currencyCode (Codes.bytes "CHW") ∧ currencyCode (Codes.bytes "USD") = .ok (Codes.bytes "US") := by
  decide +kernel

example : ∃ i', setIsinCode ⟨[85, 83], [48, 48, 48, 48, 48, 48, 48, 48, 48]⟩ [48, 51, 55, 56, 51, 51, 49, 48, 48] = .ok i' ∧ getIsinCode i' = [48, 51, 55, 56, 51, 51, 49, 48, 48] :=
  ⟨⟨[85, 83], [48, 51, 55, 56, 51, 51, 49, 48, 48]⟩, rfl, rfl⟩

/-- **C115** (legal entities): what is read of a code that was made from a text are the first four characters, the twelve from the seventh on, and the two check digits of this code. -/
theorem C115_entity (s : List Nat) (h : 18 ≤ s.length) :
    ∃ l, Codes.Lei.ofString s = .ok l ∧ entityLocal l = s.take 4 ∧ entityCode l = (s.drop 6).take 12 ∧ entityChecksum l = (Codes.Lei.mk (s.take 4) ((s.drop 6).take 12)).checksum := by
  have h1 : Codes.slice 0 4 (s ++ [0]) = s.take 4 := by
    simp [Codes.slice, List.take_append, show 4 - s.length = 0 by omega]
  have h2 : Codes.slice 6 18 (s ++ [0]) = (s.drop 6).take 12 := by
    simp only [Codes.slice]
    rw [List.drop_append_of_le_length (by omega), List.take_append_of_le_length (by rw [List.length_drop]; omega)]
  refine ⟨⟨Codes.slice 0 4 (s ++ [0]), Codes.slice 6 18 (s ++ [0])⟩, ?_, h1, h2, ?_⟩
  · simp only [Codes.Lei.ofString, if_neg (show ¬ s.length < 17 by omega)]
  · simp only [entityChecksum, h1, h2]

example : 18 ≤ (Codes.bytes "213800D1EI4B9WTWWD28").length := by decide +kernel

/-- **C115** (printing countries): a country is printed as its two letters. -/
theorem C115_print_country (c : List Nat) (hc : c.length = 2) : printed countryMember c = countryCode c := by
  match c, hc with
  | [a, b], _ => rfl

example : printed countryMember (Codes.bytes "NL") = .ok (Codes.bytes "NL") := by decide +kernel

/-- **C115 is violated** for printing: no currency can be printed in Python, nor shown in any other way that uses its text. -/
theorem C115_counterexample_print (c : List Nat) (hc : c.length = 3) : printed currencyMember c = .throws := by
  match c, hc with
  | [a, b, c], _ => rfl

example : (Codes.bytes "USD").length = 3 := by decide +kernel

/-! ## C116: messages -/

/-- **C116 is violated**: whatever an agent written in Python does with `inbox` and `outbox`, in any order and any number of times, its messages are as before: it can neither send a message, nor remove one. -/
theorem C116_counterexample_agent (c : Communicator) (program : List Statement) : program.foldl (execute false) c = c := by
  induction program with
  | nil => rfl
  | cons s p ih => exact ih

/-- **C116 is violated**: `send_message` has no effect on communicators either. -/
theorem C116_counterexample_send (reference : Bool) (c : Communicator) (ms : List Nat) : (ms.map Statement.sendMessage).foldl (execute reference) c = c := by
  induction ms with
  | nil => rfl
  | cons m ms ih =>
    have : execute reference c (.sendMessage m) = c := by cases reference <;> rfl
    simp only [List.map_cons, List.foldl_cons, this]; exact ih

/-- The messages that a program appends to the outbox. -/
def Spec.appended : List Statement → List Nat
  | [] => []
  | .outboxAppend m :: p => m :: appended p
  | _ :: p => appended p

/-- **C116**, partial: on a communicator, messages that are appended to the outbox are sent, in that order, and no others. Nothing that a program does adds an entry to the inbox. -/
theorem C116_communicator_partial (c : Communicator) (program : List Statement) :
    (program.foldl (execute true) c).outbox = c.outbox ++ Spec.appended program ∧ (keys (program.foldl (execute true) c).inbox).Sublist (keys c.inbox) := by
  induction program generalizing c with
  | nil => simp [Spec.appended]
  | cons s p ih =>
    rw [List.foldl_cons]
    obtain ⟨h1, h2⟩ := ih (execute true c s)
    rw [h1]
    cases s with
    | sendMessage m => exact ⟨rfl, h2⟩
    | outboxAppend m =>
      refine ⟨?_, h2⟩
      simp [execute, onAttribute, Spec.appended]
    | inboxAssign t m =>
      refine ⟨rfl, h2.trans ?_⟩
      simp only [execute, onAttribute, if_true, keys_assign]
      exact List.Sublist.refl _
    | inboxDelete t =>
      refine ⟨rfl, h2.trans ?_⟩
      simp only [execute, onAttribute, if_true, keys, deleteItem]
      exact List.Sublist.map _ List.filter_sublist

example : ([.outboxAppend 7, .sendMessage 8, .outboxAppend 9, .inboxDelete 1].foldl (execute true) ⟨[(1, 3), (2, 4)], [1]⟩) = ⟨[(2, 4)], [1, 7, 9]⟩ := by decide

/-! ## C117: parameters -/

/-- A number that is the value of a parameter. -/
def Spec.Holds : Parameter → Number → Prop
  | .double b, .float b' => b = b'
  | .int64 z, .int z' => z = z'
  | .uint64 n, .int z => (n : Int) = z
  | _, _ => False

/-- **C117**: what Python reads for a name is the value of that parameter, and the exception for a name that is not there is the only other outcome, except for prices. -/
theorem C117_read_partial (p : List (Nat × Parameter)) (name : Nat) :
    (∀ x, getParameter p name = .ok x → ∃ v, p.lookup name = some v ∧ Spec.Holds v x) ∧
    (p.lookup name = none → getParameter p name = .throws) ∧
    (∀ v, p.lookup name = some v → (∀ a c, v ≠ .price a c) → ∃ x, getParameter p name = .ok x) ∧ getParameter p name ≠ .ub := by
  unfold getParameter
  cases h : p.lookup name with
  | none => simp
  | some v => cases v <;> simp [packDouble, packInt, packUint, Spec.Holds]

/-- **C117 is violated** for prices, which Python can set as parameters: they cannot be read. -/
theorem C117_counterexample_price (p : List (Nat × Parameter)) (name : Nat) (v : Int) (c : List Nat) (h : p.lookup name = some (.price v c)) : getParameter p name = .throws := by
  simp [getParameter, h, packDouble, packInt, packUint]

example : getParameter [(1, .int64 (-5)), (2, .uint64 (2 ^ 64 - 1)), (3, .price 100 [85, 83, 68])] 2 = .ok (.int (2 ^ 64 - 1)) := by decide +kernel

/-! ## C118: times returned from Python -/

/-- **C118**: an agent or a model written in Python goes on at the end of the step if its method returns nothing, and at the time that it returns otherwise. If it has no method, it behaves as the base class. -/
theorem C118_time (base upper t : Nat) (ht : t < 2 ^ 64) :
    callTime (some .none) base upper = .ok upper ∧ callTime (some (.time t)) base upper = .ok t ∧ callTime none base upper = .ok base ∧ callTime (some .other) base upper = .throws ∧
    ∀ o r, callTime o base upper = .ok r → r = upper ∨ r = base ∨ o = some (.time r) := by
  refine ⟨rfl, by simp [callTime, ht], rfl, rfl, ?_⟩
  intro o r h
  match o with
  | none => injection h with h; exact Or.inr (Or.inl h.symm)
  | some .none => injection h with h; exact Or.inl h.symm
  | some (.time t) =>
    simp only [callTime] at h
    split at h
    · injection h with h; subst h; exact Or.inr (Or.inr rfl)
    · cases h
  | some .other => cases h

example : callTime (some (.time 12)) 3 10 = .ok 12 := by decide

/-! ## C119: orders -/

/-- The demand that a dictionary states for a property: the first number for it. -/
def Spec.stated (d : List (Key × Value)) (i : Nat) : Option Nat :=
  (d.filterMap fun e => match e.1, e.2 with | .property j, .number b => if j = i then some b else none | _, _ => none).head?

theorem lookup_entries {α : Type} (l : List (Nat × α)) (k : Nat) : l.lookup k = (Spec.entries l k).head? := by
  induction l with
  | nil => rfl
  | cons x l ih =>
    obtain ⟨a, v⟩ := x
    rw [entries_cons]
    by_cases h : a = k
    · subst h; simp
    · have : (k == a) = false := by simpa using Ne.symm h
      simp [List.lookup_cons, this, h, ih]

theorem emplace_entries {α : Type} (l : List (Nat × α)) (k j : Nat) (v : α) : Spec.entries (mapEmplace l k v) j = if k = j ∧ Spec.entries l j = [] then [v] else Spec.entries l j := by
  unfold mapEmplace
  by_cases h : k ∈ keys l
  · rw [if_pos ((any_key l k).2 h)]
    have : ¬ (k = j ∧ Spec.entries l j = []) := by
      rintro ⟨rfl, e⟩; exact (entries_nil_iff l k).1 e h
    rw [if_neg this]
  · rw [if_neg (by rw [any_key]; exact h), entries_insert l k j v h]
    by_cases e : k = j
    · subst e; simp [(entries_nil_iff l k).2 h]
    · simp [e]

theorem emplace_lookup {α : Type} (l : List (Nat × α)) (k j : Nat) (v : α) : (mapEmplace l k v).lookup j = (l.lookup j).or (if k = j then some v else none) := by
  rw [lookup_entries, emplace_entries, lookup_entries]
  by_cases h : k = j
  · cases e : Spec.entries l j <;> simp [h]
  · simp [h]

theorem emplace_ordered {α : Type} (l : List (Nat × α)) (k : Nat) (v : α) (ho : Spec.Ordered l) : Spec.Ordered (mapEmplace l k v) := by
  unfold mapEmplace
  split
  · exact ho
  next h => exact ordered_insert l k v (fun hh => h ((any_key l k).2 hh)) ho

/-- **C119**, partial (demand): the excess demand of an order written in Python is, for each property, the number its dictionary states, and there is no demand for other properties. -/
theorem C119_demand_partial (d : List (Key × Value)) : Spec.Ordered (convertDemand d) ∧ ∀ i, (convertDemand d).lookup i = Spec.stated d i := by
  have key : ∀ (d : List (Key × Value)) (r : List (Nat × Nat)), Spec.Ordered r →
      Spec.Ordered (d.foldl (fun result e => match e.1, e.2 with | .property i, .number b => mapEmplace result i b | _, _ => result) r) ∧
      ∀ i, (d.foldl (fun result e => match e.1, e.2 with | .property i, .number b => mapEmplace result i b | _, _ => result) r).lookup i = (r.lookup i).or (Spec.stated d i) := by
    intro d
    induction d with
    | nil => intro r hr; exact ⟨hr, fun i => by simp [Spec.stated]⟩
    | cons e d ih =>
      intro r hr
      obtain ⟨k, v⟩ := e
      rw [List.foldl_cons]
      match k, v with
      | .property j, .number b =>
        obtain ⟨h1, h2⟩ := ih (mapEmplace r j b) (emplace_ordered r j b hr)
        refine ⟨h1, fun i => ?_⟩
        rw [h2 i, emplace_lookup]
        by_cases hj : j = i
        · cases r.lookup i <;> simp [hj, Spec.stated]
        · simp [hj, Spec.stated]
      | .property j, .other =>
        obtain ⟨h1, h2⟩ := ih r hr
        exact ⟨h1, fun i => by rw [h2 i]; simp [Spec.stated]⟩
      | .other j, v =>
        obtain ⟨h1, h2⟩ := ih r hr
        exact ⟨h1, fun i => by rw [h2 i]; cases v <;> simp [Spec.stated]⟩
  obtain ⟨h1, h2⟩ := key d [] List.Pairwise.nil
  exact ⟨h1, fun i => (h2 i).trans (by simp)⟩

/-- **C119 is violated**: entries that are not understood, such as a demand given as a text, are dropped without an error; the order demands nothing. -/
theorem C119_counterexample_dropped (d : List (Key × Value)) (h : ∀ e ∈ d, e.2 = .other) : convertDemand d = [] := by
  have key : ∀ (d : List (Key × Value)) (r : List (Nat × Nat)), (∀ e ∈ d, e.2 = Value.other) →
      d.foldl (fun result e => match e.1, e.2 with | .property i, .number b => mapEmplace result i b | _, _ => result) r = r := by
    intro d
    induction d with
    | nil => intros; rfl
    | cons e d ih =>
      intro r h
      obtain ⟨k, v⟩ := e
      have hv : v = .other := h _ List.mem_cons_self
      subst hv
      rw [List.foldl_cons]
      have hr := ih r fun e he => h e (List.mem_cons_of_mem _ he)
      cases k <;> exact hr
  exact key d [] h

theorem setSupply_lookup (d : List (Nat × (Nat × Nat))) (k : Nat) : (setSupply d).lookup k = d.lookup k := by
  have key : ∀ (d r : List (Nat × (Nat × Nat))), (d.foldl (fun supply e => mapEmplace supply e.1 e.2) r).lookup k = (r.lookup k).or (d.lookup k) := by
    intro d
    induction d with
    | nil => intro r; simp
    | cons e d ih =>
      intro r
      obtain ⟨a, v⟩ := e
      rw [List.foldl_cons, ih, emplace_lookup]
      by_cases h : a = k
      · subst h; cases r.lookup a <;> simp
      · have : (k == a) = false := by simpa using Ne.symm h
        simp [h, List.lookup_cons, this]
  have := key d []
  simpa [setSupply] using this

theorem setSupply_ordered (d : List (Nat × (Nat × Nat))) : Spec.Ordered (setSupply d) := by
  have key : ∀ (d r : List (Nat × (Nat × Nat))), Spec.Ordered r → Spec.Ordered (d.foldl (fun supply e => mapEmplace supply e.1 e.2) r) := by
    intro d
    induction d with
    | nil => intro r hr; exact hr
    | cons e d ih => intro r hr; exact ih _ (emplace_ordered r e.1 e.2 hr)
  exact key d [] List.Pairwise.nil

theorem getSupply_eq (l : List (Nat × (Nat × Nat))) (ho : Spec.Ordered l) : getSupply l = l := by
  have key : ∀ (l r : List (Nat × (Nat × Nat))), Spec.Ordered (r ++ l) → l.foldl (fun d e => dictSet d e.1 (e.2.1, e.2.2)) r = r ++ l := by
    intro l
    induction l with
    | nil => intro r _; simp
    | cons e l ih =>
      intro r h
      obtain ⟨k, a, b⟩ := e
      have hk : k ∉ keys r := by
        intro hm
        obtain ⟨x, hx, e⟩ := List.mem_map.1 hm
        have := (List.pairwise_append.1 h).2.2 x hx (k, a, b) List.mem_cons_self
        simp only at this e; omega
      have hd : dictSet r k (a, b) = r ++ [(k, a, b)] := by
        unfold dictSet; rw [if_neg (by rw [any_key]; exact hk)]
      rw [List.foldl_cons]
      show List.foldl _ (dictSet r k (a, b)) l = _
      rw [hd, ih (r ++ [(k, a, b)]) (by simpa using h)]
      simp
  simpa [getSupply] using key l [] (by simpa using ho)

/-- **C119** (supply): the supply that is read from an order is the one that was written: the same long and short quantities for each property, and no other properties. -/
theorem C119_supply (d : List (Nat × (Nat × Nat))) (k : Nat) : (getSupply (setSupply d)).lookup k = d.lookup k := by
  rw [getSupply_eq _ (setSupply_ordered d), setSupply_lookup]

example : convertDemand [(.property 4, .number 10), (.other 1, .number 3), (.property 2, .other), (.property 1, .number 7)] = [(1, 7), (4, 10)] := by decide
example : getSupply (setSupply [(4, (10, 0)), (1, (2, 3))]) = [(1, (2, 3)), (4, (10, 0))] := by decide

/-! ## C120: the price of a quote -/

/-- **C120**, partial: the price of a quote that was set from Python is the price that is read. -/
theorem C120_price_partial (q : QuoteType) (v : Int) (c : List Nat) : getPrice (setPrice q v c) = .ok (v, c) := rfl

/-- **C120 is violated**: reading the price of a quote that is an exchange rate has undefined behaviour, instead of an exception. Quotes with a price are the only ones for which it has not. -/
theorem C120_counterexample_rate (q : QuoteType) : getPrice q = .ub ↔ ∃ n d, q = .rate n d := by
  cases q <;> simp [getPrice]

example : getPrice (.rate 3 2) = .ub ∧ getPrice (setPrice (.rate 3 2) 500 [69, 85, 82]) = .ok (500, [69, 85, 82]) := by decide

end Esl.Python
