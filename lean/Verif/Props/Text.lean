import Verif.Model.Text
/-! C63: delimiter-separated values; C64: printed containers. -/
namespace Esl.Text

/-! ## C63 -/

/-- Splits a text at each occurrence of a character. -/
def Spec.split (d : Char) : Str → List Str
  | [] => [[]]
  | c :: cs =>
    if c = d then [] :: Spec.split d cs
    else match Spec.split d cs with
      | [] => [[c]]
      | f :: fs => (c :: f) :: fs

/-- The lines of a text: each is ended by a newline. -/
def Spec.lines : Str → List Str := fun s => (Spec.split '\n' s).dropLast

/-- Reads records: lines are records, commas separate fields. -/
def Spec.read (s : Str) : List (List Str) := (Spec.lines s).map (Spec.split ',')

/-- A field without comma and newline. -/
def Spec.plain (f : Str) : Prop := ',' ∉ f ∧ '\n' ∉ f

theorem split_ne_nil (d : Char) (s : Str) : Spec.split d s ≠ [] := by
  cases s with
  | nil => simp [Spec.split]
  | cons c cs =>
    unfold Spec.split
    split
    · simp
    · split <;> simp

theorem split_none (d : Char) (s : Str) (h : d ∉ s) : Spec.split d s = [s] := by
  induction s with
  | nil => rfl
  | cons c cs ih =>
    simp only [List.mem_cons, not_or] at h
    unfold Spec.split
    rw [if_neg (fun e => h.1 e.symm), ih h.2]

theorem split_append (d : Char) (s t : Str) (h : d ∉ s) : Spec.split d (s ++ d :: t) = s :: Spec.split d t := by
  induction s with
  | nil => simp [Spec.split]
  | cons c cs ih =>
    simp only [List.mem_cons, not_or] at h
    rw [List.cons_append]
    rw [Spec.split, if_neg (fun e => h.1 e.symm), ih h.2]

theorem split_extract (first : Str) (rest : List Str) (h : ∀ f ∈ first :: rest, ',' ∉ f) : Spec.split ',' (extractElement first rest) = first :: rest := by
  induction rest generalizing first with
  | nil => exact split_none _ _ (h first (by simp))
  | cons x xs ih =>
    unfold extractElement
    rw [List.append_assoc, List.singleton_append, split_append _ _ _ (h first (by simp)), ih x (fun f hf => h f (List.mem_cons_of_mem _ hf))]

theorem newline_extract (first : Str) (rest : List Str) (h : ∀ f ∈ first :: rest, '\n' ∉ f) : '\n' ∉ extractElement first rest := by
  induction rest generalizing first with
  | nil => exact h first (by simp)
  | cons x xs ih =>
    unfold extractElement
    simp only [List.mem_append, List.mem_singleton, not_or]
    exact ⟨⟨h first (by simp), by decide⟩, ih x (fun f hf => h f (List.mem_cons_of_mem _ hf))⟩

/-- **C63 (partial).** Records whose fields contain neither commas nor newlines are read back from what `render_records` writes: all records, all fields, in order.
Missing: fields with commas or newlines, which the writer does not escape; see the counterexamples. -/
theorem C63_plain_records_partial (records : List Row) (h : ∀ r ∈ records, ∀ f ∈ r.first :: r.rest, Spec.plain f) :
    Spec.read (renderRecords records) = records.map fun r => r.first :: r.rest := by
  unfold Spec.read Spec.lines
  have key : Spec.split '\n' (renderRecords records) = (records.map fun r => extractElement r.first r.rest) ++ [[]] := by
    induction records with
    | nil => rfl
    | cons r rs ih =>
      unfold renderRecords renderRow
      rw [List.append_assoc, List.singleton_append, split_append _ _ _ (newline_extract _ _ fun f hf => (h r (by simp) f hf).2), ih (fun r' hr => h r' (List.mem_cons_of_mem _ hr))]
      rfl
  rw [key, List.dropLast_concat, List.map_map]
  apply List.map_congr_left
  intro r hr
  exact split_extract _ _ fun f hf => (h r hr f hf).1

/-- Non-vacuity: two records, with empty fields and with quotes. -/
example : (∀ r ∈ [Row.mk ['a', '"'] [[], ['b', ' ', 'c']], Row.mk [] []], ∀ f ∈ r.first :: r.rest, Spec.plain f) ∧
    Spec.read (renderRecords [Row.mk ['a', '"'] [[], ['b', ' ', 'c']], Row.mk [] []]) = [[['a', '"'], [], ['b', ' ', 'c']], [[]]] := by
  refine ⟨?_, by decide⟩
  intro r hr f hf
  simp at hr
  rcases hr with rfl | rfl <;> simp at hf
  · rcases hf with rfl | rfl | rfl <;> exact ⟨by decide, by decide⟩
  · subst hf; exact ⟨by decide, by decide⟩

/-- **C63, negation: commas.** A row of one field with a comma and a row of two fields are written in the same way, so that no reader can recover the fields. -/
theorem C63_counterexample_comma : Row.mk ['a', ',', 'b'] [] ≠ Row.mk ['a'] [['b']] ∧ renderRow (Row.mk ['a', ',', 'b'] []) = renderRow (Row.mk ['a'] [['b']]) := by
  decide

/-- **C63, negation: no reader exists.** There is no function that recovers every row from what is written. -/
theorem C63_counterexample_no_reader : ¬∃ reader : Str → Row, ∀ r, reader (renderRow r) = r := by
  rintro ⟨reader, h⟩
  have h1 := h (Row.mk ['a', ',', 'b'] [])
  have h2 := h (Row.mk ['a'] [['b']])
  rw [C63_counterexample_comma.2, h2] at h1
  exact C63_counterexample_comma.1 h1.symm

/-- **C63, negation: newlines.** One record with a newline in it and two records are written in the same way. -/
theorem C63_counterexample_newline : renderRecords [Row.mk ['a', '\n', 'b'] []] = renderRecords [Row.mk ['a'] [], Row.mk ['b'] []] := by
  decide

/-- A reader of a line of rendered fields: the escape character makes the next one an ordinary one, quotes switch quoting on and off, delimiters outside quotes separate fields. `inside` tells whether the reader is
inside quotes, `current` is the field read so far. -/
def Spec.fields (d q e : Char) (inside : Bool) (current : Str) : Str → List Str
  | [] => [current]
  | c :: cs =>
    if c = e then
      match cs with
      | [] => [current]
      | x :: cs => Spec.fields d q e inside (current ++ [x]) cs
    else if c = q then Spec.fields d q e (!inside) current cs
    else if c = d ∧ inside = false then current :: Spec.fields d q e false [] cs
    else Spec.fields d q e inside (current ++ [c]) cs

/-- The rendered fields, with delimiters between them. -/
def Spec.join (d : Char) : List Str → Str
  | [] => []
  | [f] => f
  | f :: g :: fs => f ++ [d] ++ Spec.join d (g :: fs)

theorem fields_escaped (d q e : Char) (hqe : q ≠ e) (inside : Bool) (text current tail : Str) (h : d ∉ text ∨ inside = true) :
    Spec.fields d q e inside current (escapeLoop q e text ++ tail) = Spec.fields d q e inside (current ++ text) tail := by
  induction text generalizing current with
  | nil => simp [escapeLoop]
  | cons c cs ih =>
    have hcs : d ∉ cs ∨ inside = true := h.imp (fun h1 => fun hc => h1 (List.mem_cons_of_mem _ hc)) id
    unfold escapeLoop
    by_cases hc : q = c ∨ e = c
    · rw [if_pos hc]
      simp only [List.singleton_append, List.cons_append, List.nil_append]
      rw [Spec.fields, if_pos rfl, ih _ hcs]
      simp
    · rw [if_neg hc]
      simp only [List.nil_append, List.singleton_append, List.cons_append]
      have h1 : c ≠ e := fun he => hc (Or.inr he.symm)
      have h2 : c ≠ q := fun he => hc (Or.inl he.symm)
      have h3 : ¬(c = d ∧ inside = false) := by
        rintro ⟨rfl, hi⟩
        rcases h with h | h
        · exact h (by simp)
        · rw [h] at hi; cases hi
      rw [Spec.fields.eq_def]
      simp only [if_neg h1, if_neg h2, if_neg h3]
      rw [ih _ hcs]
      simp

theorem fields_render (d q e : Char) (hqe : q ≠ e) (text tail : Str) :
    Spec.fields d q e false [] (render d q e text ++ tail) = Spec.fields d q e false text tail := by
  unfold render
  by_cases hd : d ∈ text
  · simp only [if_pos hd, if_true, List.singleton_append, List.cons_append, List.append_assoc]
    rw [Spec.fields.eq_def]
    simp only [if_neg hqe, if_true, Bool.not_false]
    rw [List.nil_append, fields_escaped d q e hqe true text [] _ (Or.inr rfl), List.nil_append, Spec.fields.eq_def]
    simp only [List.nil_append, if_neg hqe, if_true, Bool.not_true]
  · by_cases he : e ∈ text
    · simp only [if_neg hd, if_pos he, if_true, List.singleton_append, List.cons_append, List.append_assoc]
      rw [Spec.fields.eq_def]
      simp only [if_neg hqe, if_true, Bool.not_false]
      rw [List.nil_append, fields_escaped d q e hqe true text [] _ (Or.inr rfl), List.nil_append, Spec.fields.eq_def]
      simp only [List.nil_append, if_neg hqe, if_true, Bool.not_true]
    · simp only [if_neg hd, if_neg he, Bool.false_eq_true, if_false, List.nil_append, List.append_nil]
      rw [fields_escaped d q e hqe false text [] tail (Or.inl hd), List.nil_append]

/-- **C63, rendered texts.** For any three different characters used as delimiter, quote and escape: all texts whatsoever that are passed through `render` and joined with delimiters are recovered, each of them
exactly, by a reader that knows these characters. -/
theorem C63_render (d q e : Char) (hdq : d ≠ q) (hde : d ≠ e) (hqe : q ≠ e) (first : Str) (rest : List Str) :
    Spec.fields d q e false [] (Spec.join d ((first :: rest).map (render d q e))) = first :: rest := by
  induction rest generalizing first with
  | nil =>
    have := fields_render d q e hqe first []
    simp only [List.append_nil] at this
    simp only [List.map_cons, List.map_nil, Spec.join]
    rw [this]; simp [Spec.fields]
  | cons x xs ih =>
    have hx := ih x
    simp only [List.map_cons, Spec.join] at hx ⊢
    rw [List.append_assoc, fields_render d q e hqe, List.singleton_append, Spec.fields.eq_def]
    simp only [if_neg hde, if_neg hdq, true_and, if_true, hx]

/-- Non-vacuity: the default characters; fields with all of them. -/
example : Spec.join ',' ([['a', ',', '"', 'b'], ['"'], ['\\'], []].map (render ',' '"' '\\')) = ['"', 'a', ',', '\\', '"', 'b', '"', ',', '\\', '"', ',', '"', '\\', '\\', '"', ','] ∧
    Spec.fields ',' '"' '\\' false [] ['"', 'a', ',', '\\', '"', 'b', '"', ',', '\\', '"', ',', '"', '\\', '\\', '"', ','] = [['a', ',', '"', 'b'], ['"'], ['\\'], []] := by
  decide

/-! ## C64 -/

/-- The elements, in order, with a separator between each and the next. -/
def Spec.separated (separator : Str) (xs : List Str) : Str := (xs.intersperse separator).flatten

theorem following_eq (separator x : Str) (xs : List Str) : x ++ following separator xs = Spec.separated separator (x :: xs) := by
  induction xs generalizing x with
  | nil => simp [following, Spec.separated]
  | cons y ys ih =>
    unfold following
    rw [List.append_assoc separator, ih y]
    simp [Spec.separated]

/-- **C64, vectors.** A vector is printed in square brackets with all its elements, each once and in order, separated by commas. -/
theorem C64_vector (xs : List Str) : printVector xs = ['['] ++ Spec.separated [',', ' '] xs ++ [']'] := by
  cases xs with
  | nil => rfl
  | cons x xs =>
    rw [printVector, ← following_eq, List.append_assoc ['['] x]

theorem arrayLoop_eq (a : List Str) (k i : Nat) (h : i + k = a.length) : arrayLoop a i k = .ok (following [',', ' '] (a.drop i)) := by
  induction k generalizing i with
  | zero => rw [List.drop_of_length_le (by omega)]; rfl
  | succ k ih =>
    have hi : i < a.length := by omega
    unfold arrayLoop
    rw [List.getElem?_eq_getElem hi, List.drop_eq_getElem_cons hi]
    simp only
    rw [ih (i + 1) (by omega)]
    rfl

/-- **C64, arrays.** The same of an array; it is never read behind its end. -/
theorem C64_array (xs : List Str) : printArray xs = .ok (['['] ++ Spec.separated [',', ' '] xs ++ [']']) := by
  cases xs with
  | nil => rfl
  | cons x xs =>
    unfold printArray
    simp only
    rw [arrayLoop_eq _ _ 1 (by simp; omega)]
    simp only [Outcome.bind_ok, List.drop_succ_cons, List.drop_zero]
    rw [← following_eq, List.append_assoc ['['] x]

/-- **C64, tuples.** A tuple is printed in parentheses with all its elements. -/
theorem C64_tuple (first : Str) (rest : List Str) : printTuple first rest = ['('] ++ Spec.separated [',', ' '] (first :: rest) ++ [')'] := by
  unfold printTuple
  congr 2
  induction rest generalizing first with
  | nil => simp [tupleElements, Spec.separated]
  | cons x xs ih =>
    unfold tupleElements
    rw [ih x]
    simp [Spec.separated]

/-- **C64, maps.** A map is printed in braces with all its keys and values, in the order of iteration. -/
theorem C64_map (xs : List (Str × Str)) : printMap xs = ['{'] ++ Spec.separated [',', ' '] (xs.map fun i => i.1 ++ [':', ' '] ++ i.2) ++ ['}'] := by
  cases xs with
  | nil => rfl
  | cons x xs =>
    unfold printMap
    rw [List.map_cons, ← following_eq]
    simp only [List.append_assoc]

theorem queueLoop_eq (c : Nat) (q : List Str) : queueLoop c q = following [',', ' '] (q.take ((q.length - c + 1) / 2)) := by
  induction q generalizing c with
  | nil => simp [queueLoop, following]
  | cons x q ih =>
    unfold queueLoop
    by_cases h : c < (x :: q).length
    · rw [if_pos h, ih (c + 1)]
      have e : ((x :: q).length - c + 1) / 2 = (q.length - (c + 1) + 1) / 2 + 1 := by
        simp only [List.length_cons] at h ⊢
        rcases Nat.lt_or_ge q.length (c + 1) with h1 | h1
        · omega
        · omega
      rw [e, List.take_succ_cons]
      rfl
    · rw [if_neg h]
      have e : ((x :: q).length - c + 1) / 2 = 0 := by omega
      rw [e, List.take_zero]
      rfl

/-- **C64, what is printed of a queue.** Of a queue with `n ≥ 1` elements, the first `n / 2 + 1` are printed, and no others. -/
theorem C64_queue_prefix (q : List Str) (h : q ≠ []) : printQueue q = ['['] ++ Spec.separated [',', ' '] (q.take (q.length / 2 + 1)) ++ [']'] := by
  cases q with
  | nil => exact absurd rfl h
  | cons x q =>
    rw [printQueue, queueLoop_eq, List.take_succ_cons, ← following_eq, List.append_assoc ['['] x]
    have e : (q.length - 0 + 1) / 2 = (x :: q).length / 2 := by simp
    rw [e]

/-- **C64, queues (partial).** A queue of at most two elements is printed with all of them. Missing: larger queues. -/
theorem C64_queue_partial (q : List Str) (h : q.length ≤ 2) : printQueue q = ['['] ++ Spec.separated [',', ' '] q ++ [']'] := by
  cases q with
  | nil => rfl
  | cons x q =>
    rw [C64_queue_prefix _ (by simp), List.take_of_length_le (by simp at h ⊢; omega)]

/-- **C64, negation.** Whatever the elements, the last element of a queue with at least three is not printed. -/
theorem C64_counterexample_queue (x y z : Str) (q : List Str) : ∃ n, n < (x :: y :: z :: q).length ∧
    printQueue (x :: y :: z :: q) = ['['] ++ Spec.separated [',', ' '] ((x :: y :: z :: q).take n) ++ [']'] :=
  ⟨(x :: y :: z :: q).length / 2 + 1, by simp; omega, C64_queue_prefix _ (by simp)⟩

example : printQueue [['1'], ['2'], ['3'], ['4'], ['5']] = ['[', '1', ',', ' ', '2', ',', ' ', '3', ']'] := by decide
example : printVector [['1'], ['2'], ['3']] = ['[', '1', ',', ' ', '2', ',', ' ', '3', ']'] ∧ printVector [] = ['[', ']'] := by decide
example : printTuple ['1'] [['x']] = ['(', '1', ',', ' ', 'x', ')'] := by decide
example : printMap [(['a'], ['1']), (['b'], ['2'])] = ['{', 'a', ':', ' ', '1', ',', ' ', 'b', ':', ' ', '2', '}'] := by decide
example : printArray [['1'], ['2']] = .ok ['[', '1', ',', ' ', '2', ']'] := by decide

end Esl.Text
