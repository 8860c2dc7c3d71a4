import Verif.Model.Version
/-! C185: the library and the package have the same version. -/
namespace Esl.Version

/-- The file that states a version, in the order and notation of the repository. -/
def Spec.file (a b c : Nat) : List Line := [.definition major (Nat.toDigits 10 a), .definition minor (Nat.toDigits 10 b), .definition revision (Nat.toDigits 10 c)]

/-- Numbers with dots between them. -/
def Spec.text (a b c : Nat) : List Char := Nat.toDigits 10 a ++ '.' :: (Nat.toDigits 10 b ++ '.' :: Nat.toDigits 10 c)

theorem split_none (c : Char) (a : List Char) (h : c ∉ a) : split c a = [a] := by
  induction a with
  | nil => rfl
  | cons x a ih =>
    rw [split, if_neg (show ¬ x = c from fun e => h (by rw [e]; exact List.mem_cons_self)), ih fun hm => h (List.mem_cons_of_mem _ hm)]

theorem split_append (c : Char) (a b : List Char) (h : c ∉ a) : split c (a ++ c :: b) = a :: split c b := by
  induction a with
  | nil => rw [List.nil_append, split, if_pos rfl]
  | cons x a ih =>
    rw [List.cons_append, split, if_neg (show ¬ x = c from fun e => h (by rw [e]; exact List.mem_cons_self)), ih fun hm => h (List.mem_cons_of_mem _ hm)]

theorem digits_ne_nil (n : Nat) : Nat.toDigits 10 n ≠ [] := by
  intro h
  have := Nat.length_toDigits_pos (b := 10) (n := n)
  rw [h] at this
  simp at this

theorem digit_of_mem {n : Nat} {c : Char} (h : c ∈ Nat.toDigits 10 n) : c.isDigit := Nat.isDigit_of_mem_toDigits (by decide) (by decide) h

theorem not_mem_digits (n : Nat) (c : Char) (hc : c.isDigit = false) : c ∉ Nat.toDigits 10 n := by
  intro h
  rw [digit_of_mem h] at hc
  cases hc

theorem dropWhile_digits (l : List Char) (h : ∀ c ∈ l, c.isDigit = true) : l.dropWhile (·.isWhitespace) = l := by
  cases l with
  | nil => rfl
  | cons x l =>
    have hx := h x List.mem_cons_self
    have : x.isWhitespace = false := by
      cases hw : x.isWhitespace with
      | false => rfl
      | true =>
        exfalso
        simp only [Char.isWhitespace, Bool.or_eq_true, decide_eq_true_eq] at hw
        rcases hw with ((rfl | rfl) | rfl) | rfl <;> revert hx <;> decide
    rw [List.dropWhile_cons, this]
    rfl

theorem strip_digits (l : List Char) (h : ∀ c ∈ l, c.isDigit = true) : strip (' ' :: l) = l := by
  unfold strip
  have h1 : (' ' :: l).dropWhile (·.isWhitespace) = l := by
    rw [List.dropWhile_cons]
    exact dropWhile_digits l h
  rw [h1, dropWhile_digits _ (fun c hc => h c (List.mem_reverse.1 hc)), List.reverse_reverse]

theorem int_digits (n : Nat) : int (Nat.toDigits 10 n) = .ok n := by
  unfold int
  rw [if_pos ⟨digits_ne_nil n, by simpa using fun c hc => digit_of_mem hc⟩, Nat.ofDigitChars_ten_toDigits]

/-- A line that defines a constant with digits is read. -/
theorem number_line (name numeral : List Char) (hn : ';' ∉ name ∧ '=' ∉ name) (hd : ∀ c ∈ numeral, c.isDigit = true) : number (Line.definition name numeral).text = int numeral := by
  have hs : ∀ c : Char, c.isDigit = false → c ∉ numeral := fun c hc hm => by rw [hd c hm] at hc; cases hc
  unfold number
  have e1 : (Line.definition name numeral).text = (declaration ++ name ++ [' ', '=', ' '] ++ numeral) ++ ';' :: [] := by simp [Line.text]
  rw [e1, split_append ';' _ _ (by
    simp only [List.mem_append, not_or]
    exact ⟨⟨⟨by decide, hn.1⟩, by decide⟩, hs _ (by decide)⟩)]
  simp only [List.head?_cons]
  have e2 : declaration ++ name ++ [' ', '=', ' '] ++ numeral = (declaration ++ name ++ [' ']) ++ '=' :: (' ' :: numeral) := by simp
  rw [e2, split_append '=' _ _ (by
    simp only [List.mem_append, not_or]
    exact ⟨⟨by decide, hn.2⟩, by decide⟩), split_none '=' _ (by
    simp only [List.mem_cons, not_or]
    exact ⟨by decide, hs _ (by decide)⟩)]
  simp only [List.getElem?_cons_succ, List.getElem?_cons_zero]
  rw [strip_digits _ hd]

theorem mentions_append (a b : List Char) (h : mentions b = true) : mentions (a ++ b) = true := by
  induction a with
  | nil => exact h
  | cons x a ih =>
    rw [List.cons_append, mentions]
    simp [ih]

theorem isPrefixOf_append (p a b : List Char) (h : p.isPrefixOf a = true) : p.isPrefixOf (a ++ b) = true := by
  rw [List.isPrefixOf_iff_prefix] at h ⊢
  exact List.IsPrefix.trans h (List.prefix_append a b)

theorem mentions_line (name numeral : List Char) (h : marker.isPrefixOf name = true) : mentions (Line.definition name numeral).text = true := by
  have e : (Line.definition name numeral).text = declaration ++ (name ++ ([' ', '=', ' '] ++ numeral ++ [';'])) := by simp [Line.text]
  rw [e]
  refine mentions_append _ _ ?_
  have := isPrefixOf_append _ name ([' ', '=', ' '] ++ numeral ++ [';']) h
  cases hl : name ++ ([' ', '=', ' '] ++ numeral ++ [';']) with
  | nil => rw [hl] at this; revert this; decide
  | cons x l =>
    rw [hl] at this
    rw [mentions, this]
    rfl

theorem newline_line (name numeral : List Char) (hn : '\n' ∉ name) (hd : ∀ c ∈ numeral, c.isDigit = true) : '\n' ∉ (Line.definition name numeral).text := by
  have hs : '\n' ∉ numeral := fun hm => by have := hd _ hm; revert this; decide
  simp only [Line.text, List.mem_append, not_or]
  exact ⟨⟨⟨⟨by decide, hn⟩, by decide⟩, hs⟩, by decide⟩

/-- A file of three definitions whose numerals are digits. -/
theorem read_three (n1 n2 n3 d1 d2 d3 : List Char) (h1 : n1 = major ∨ n1 = minor ∨ n1 = revision) (h2 : n2 = major ∨ n2 = minor ∨ n2 = revision) (h3 : n3 = major ∨ n3 = minor ∨ n3 = revision)
    (e1 : ∀ c ∈ d1, c.isDigit = true) (e2 : ∀ c ∈ d2, c.isDigit = true) (e3 : ∀ c ∈ d3, c.isDigit = true) :
    readVersion (fileText [.definition n1 d1, .definition n2 d2, .definition n3 d3]) = int d1 >>= fun a => int d2 >>= fun b => int d3 >>= fun c => .ok [a, b, c] := by
  have hname : ∀ n : List Char, n = major ∨ n = minor ∨ n = revision → '\n' ∉ n ∧ (';' ∉ n ∧ '=' ∉ n) ∧ marker.isPrefixOf n = true := by
    intro n h
    rcases h with rfl | rfl | rfl <;> decide
  obtain ⟨a1, b1, c1⟩ := hname n1 h1
  obtain ⟨a2, b2, c2⟩ := hname n2 h2
  obtain ⟨a3, b3, c3⟩ := hname n3 h3
  unfold readVersion
  simp only [fileText]
  rw [split_append _ _ _ (newline_line n1 d1 a1 e1), split_append _ _ _ (newline_line n2 d2 a2 e2), split_none _ _ (newline_line n3 d3 a3 e3)]
  simp only [numbers, mentions_line n1 d1 c1, mentions_line n2 d2 c2, mentions_line n3 d3 c3, if_true, number_line n1 d1 b1 e1, number_line n2 d2 b2 e2, number_line n3 d3 b3 e3]
  cases int d1 <;> try rfl
  cases int d2 <;> try rfl
  cases int d3 <;> rfl

theorem ofDigit_lt (n : Nat) : Nat.ofDigitChars 10 (Nat.toDigits 10 n) 0 = n := Nat.ofDigitChars_ten_toDigits

/-- Decimal numerals of positive numbers do not start with zero. -/
theorem digits_head (n : Nat) (ds : List Char) (h : Nat.toDigits 10 n = '0' :: ds) : ds = [] := by
  by_cases hn : n < 10
  · rw [Nat.toDigits_of_lt_base hn] at h
    injection h with _ h
    exact h.symm
  · exfalso
    have key : ∀ n, 0 < n → (Nat.toDigits 10 n).head? ≠ some '0' := by
      intro n
      induction n using Nat.strongRecOn with
      | ind n ih =>
        intro hpos
        by_cases hn : n < 10
        · rw [Nat.toDigits_of_lt_base hn]
          simp only [List.head?_cons, ne_eq, Option.some.injEq]
          intro e
          have : ∀ k : Fin 10, 0 < k.val → Nat.digitChar k.val ≠ '0' := by decide
          exact this ⟨n, hn⟩ hpos e
        · rw [Nat.toDigits_of_base_le (by decide) (by omega)]
          have hne := digits_ne_nil (n / 10)
          have := ih (n / 10) (by omega) (by omega)
          cases hl : Nat.toDigits 10 (n / 10) with
          | nil => exact absurd hl hne
          | cons x l => rw [hl] at this; exact this
    exact key n (by omega) (by rw [h]; rfl)

theorem literal_digits (n : Nat) (h : n < 2 ^ 32) : literal (Nat.toDigits 10 n) = .ok n := by
  have hd : ∀ c ∈ Nat.toDigits 10 n, c.isDigit = true := fun c hc => digit_of_mem hc
  have hv := ofDigit_lt n
  have h0 := digits_head n
  have hne := digits_ne_nil n
  generalize Nat.toDigits 10 n = l at *
  match l, hd, hv, h0, hne with
  | [], _, _, _, hne => exact absurd rfl hne
  | [c], hd, hv, _, _ => rw [literal, if_pos (hd c List.mem_cons_self), hv]
  | c :: d :: ds, hd, hv, h0, _ =>
    have hc : c ≠ '0' := fun e => by
      have := h0 (d :: ds) (by rw [e])
      cases this
    have : literal (c :: d :: ds) = if (c :: d :: ds).all (·.isDigit) then .ok (Nat.ofDigitChars 10 (c :: d :: ds) 0 % 2 ^ 32) else .throws := by
      unfold literal
      split
      · rename_i h; cases h
      · rename_i h; cases h
      · rename_i h; injection h with h; exact absurd h hc
      · rfl
    rw [this, if_pos (List.all_eq_true.2 hd), hv, Nat.mod_eq_of_lt h]

theorem constants (d1 d2 d3 : List Char) : constant [.definition major d1, .definition minor d2, .definition revision d3] major = literal d1 ∧
    constant [.definition major d1, .definition minor d2, .definition revision d3] minor = literal d2 ∧ constant [.definition major d1, .definition minor d2, .definition revision d3] revision = literal d3 := by
  have e1 : major ≠ minor := by decide
  have e2 : major ≠ revision := by decide
  have e3 : minor ≠ revision := by decide
  simp [constant, e1, e2, e3]

/-- **C185 (partial).** Whatever the version is, in decimal notation and the order of the repository: Python reads the three numbers, and `version()` of the library and the version of the package are the same text, the numbers with dots between them.
What is missing: other notations and orders, and comments, see the counterexamples. -/
theorem C185_agree_partial (a b c : Nat) (ha : a < 2 ^ 32) (hb : b < 2 ^ 32) (hc : c < 2 ^ 32) :
    readVersion (fileText (Spec.file a b c)) = .ok [a, b, c] ∧ version (Spec.file a b c) = .ok (Spec.text a b c) ∧ packageVersion (fileText (Spec.file a b c)) = .ok (Spec.text a b c) := by
  have hr : readVersion (fileText (Spec.file a b c)) = .ok [a, b, c] := by
    unfold Spec.file
    rw [read_three _ _ _ _ _ _ (.inl rfl) (.inr (.inl rfl)) (.inr (.inr rfl)) (fun _ => digit_of_mem) (fun _ => digit_of_mem) (fun _ => digit_of_mem), int_digits, int_digits, int_digits]
    rfl
  refine ⟨hr, ?_, ?_⟩
  · unfold version Spec.file
    obtain ⟨e1, e2, e3⟩ := constants (Nat.toDigits 10 a) (Nat.toDigits 10 b) (Nat.toDigits 10 c)
    rw [e1, e2, e3, literal_digits a ha, literal_digits b hb, literal_digits c hc]
    rfl
  · unfold packageVersion
    rw [hr]
    rfl

/-- The version of the repository. -/
example : readVersion ("constexpr unsigned int ESL_VERSION_MAJOR    = 0;\nconstexpr unsigned int ESL_VERSION_MINOR    = 0;\nconstexpr unsigned int ESL_VERSION_REVISION = 150;".toList) = .ok [0, 0, 150] ∧
    version (Spec.file 0 0 150) = .ok "0.0.150".toList := by decide +kernel

/-- **C185, texts.** Different versions have different texts. -/
theorem C185_distinct (a b c a' b' c' : Nat) (h : Spec.text a b c = Spec.text a' b' c') : a = a' ∧ b = b' ∧ c = c' := by
  have dot : ∀ n, '.' ∉ Nat.toDigits 10 n := fun n => not_mem_digits n '.' (by decide)
  have e := congrArg (split '.') h
  unfold Spec.text at e
  rw [split_append _ _ _ (dot a), split_append _ _ _ (dot b), split_none _ _ (dot c), split_append _ _ _ (dot a'), split_append _ _ _ (dot b'), split_none _ _ (dot c')] at e
  simp only [List.cons.injEq, and_true] at e
  have inj : ∀ m n : Nat, Nat.toDigits 10 m = Nat.toDigits 10 n → m = n := by
    intro m n h
    rw [← ofDigit_lt m, ← ofDigit_lt n, h]
  exact ⟨inj _ _ e.1, inj _ _ e.2.1, inj _ _ e.2.2⟩

example : Spec.text 1 10 0 ≠ Spec.text 11 0 0 := by decide +kernel

/-- **C185, negation, order.** Python takes the numbers in the order of the lines, and C++ by their names: with the first two lines exchanged the package has another version than the library, unless the numbers are equal. -/
theorem C185_counterexample_order (a b c : Nat) (ha : a < 2 ^ 32) (hb : b < 2 ^ 32) (hc : c < 2 ^ 32) (hne : a ≠ b) :
    let file : List Line := [.definition minor (Nat.toDigits 10 b), .definition major (Nat.toDigits 10 a), .definition revision (Nat.toDigits 10 c)]
    version file = .ok (Spec.text a b c) ∧ packageVersion (fileText file) = .ok (Spec.text b a c) ∧ Spec.text a b c ≠ Spec.text b a c := by
  refine ⟨?_, ?_, fun h => hne (C185_distinct _ _ _ _ _ _ h).1⟩
  · have e1 : major ≠ minor := by decide
    have e2 : minor ≠ major := by decide
    have e3 : major ≠ revision := by decide
    have e4 : minor ≠ revision := by decide
    simp only [version, constant, e2, e3, e4, if_false, if_true, literal_digits a ha, literal_digits b hb, literal_digits c hc, Outcome.bind_ok]
    rfl
  · unfold packageVersion
    rw [read_three _ _ _ _ _ _ (.inr (.inl rfl)) (.inl rfl) (.inr (.inr rfl)) (fun _ => digit_of_mem) (fun _ => digit_of_mem) (fun _ => digit_of_mem), int_digits, int_digits, int_digits]
    rfl

/-- **C185, negation, zeros.** A number that is written with a leading zero is octal in C++ and decimal in Python: with 010 as the major version, the library has 8 and the package 10, whatever the other numbers are. -/
theorem C185_counterexample_zero (b c : Nat) (hb : b < 2 ^ 32) (hc : c < 2 ^ 32) :
    let file : List Line := [.definition major ['0', '1', '0'], .definition minor (Nat.toDigits 10 b), .definition revision (Nat.toDigits 10 c)]
    version file = .ok (Spec.text 8 b c) ∧ packageVersion (fileText file) = .ok (Spec.text 10 b c) := by
  refine ⟨?_, ?_⟩
  · obtain ⟨e1, e2, e3⟩ := constants ['0', '1', '0'] (Nat.toDigits 10 b) (Nat.toDigits 10 c)
    simp only [version, e1, e2, e3, literal_digits b hb, literal_digits c hc]
    have : literal ['0', '1', '0'] = .ok 8 := by decide +kernel
    rw [this]
    rfl
  · unfold packageVersion
    rw [read_three _ _ _ _ _ _ (.inl rfl) (.inr (.inl rfl)) (.inr (.inr rfl)) (by decide) (fun _ => digit_of_mem) (fun _ => digit_of_mem), int_digits, int_digits]
    have : int ['0', '1', '0'] = .ok 10 := by decide +kernel
    rw [this]
    rfl

/-- **C185, negation, comments.** A comment in front that mentions one of the constants and has no equals sign does not change the library, and Python cannot read the version any more, so that the import raises an exception. -/
theorem C185_counterexample_comment (a b c : Nat) (ha : a < 2 ^ 32) (hb : b < 2 ^ 32) (hc : c < 2 ^ 32) (t : List Char) (ht : mentions t = true) (hn : '\n' ∉ t) (he : '=' ∉ t) :
    version (.comment t :: Spec.file a b c) = .ok (Spec.text a b c) ∧ readVersion (fileText (.comment t :: Spec.file a b c)) = .throws := by
  refine ⟨(C185_agree_partial a b c ha hb hc).2.1, ?_⟩
  have hnl : '\n' ∉ (Line.comment t).text := by
    simp only [Line.text, List.mem_append, not_or]
    exact ⟨by decide, hn⟩
  have hm : mentions (Line.comment t).text = true := mentions_append _ _ ht
  have hnum : number (Line.comment t).text = .throws := by
    have heq : '=' ∉ (Line.comment t).text := by
      simp only [Line.text, List.mem_append, not_or]
      exact ⟨by decide, he⟩
    unfold number
    have sub : ∀ (s : List Char) l, (split ';' s).head? = some l → ∀ x ∈ l, x ∈ s := by
      intro s
      induction s with
      | nil => intro l h; simp [split] at h; subst h; simp
      | cons y s ih =>
        intro l h x hx
        rw [split] at h
        split at h
        · simp at h; subst h; cases hx
        · cases hs : split ';' s with
          | nil => rw [hs] at h; simp at h; subst h; simp at hx; rw [hx]; exact List.mem_cons_self
          | cons l' ls =>
            rw [hs] at h
            simp at h
            subst h
            rcases List.mem_cons.1 hx with rfl | hx
            · exact List.mem_cons_self
            · exact List.mem_cons_of_mem _ (ih l' (by rw [hs]; rfl) x hx)
    cases hs : (split ';' (Line.comment t).text).head? with
    | none => rfl
    | some l =>
      have : '=' ∉ l := fun h => heq (sub _ _ hs _ h)
      simp only [split_none _ _ this]
      rfl
  unfold readVersion Spec.file
  simp only [fileText]
  rw [split_append _ _ _ hnl]
  simp only [numbers, hm, if_true, hnum]
  rfl

example : mentions "see ESL_VERSION_MAJOR".toList = true ∧ '\n' ∉ "see ESL_VERSION_MAJOR".toList ∧ '=' ∉ "see ESL_VERSION_MAJOR".toList := by decide +kernel

/-- A text of lines, with newlines in between. -/
def Spec.lines : List (List Char) → List Char
  | [] => []
  | [l] => l
  | l :: m :: ls => l ++ '\n' :: Spec.lines (m :: ls)

theorem split_lines (ls : List (List Char)) (hne : ls ≠ []) (h : ∀ l ∈ ls, '\n' ∉ l) : split '\n' (Spec.lines ls) = ls := by
  induction ls with
  | nil => exact absurd rfl hne
  | cons l ls ih =>
    have h1 := h l (List.mem_cons_self ..)
    cases ls with
    | nil => exact split_none _ _ h1
    | cons m ls =>
      rw [Spec.lines, split_append _ _ _ h1, ih (by simp) fun x hx => h x (List.mem_cons_of_mem _ hx)]

theorem mentions_iff (l : List Char) (h : mentions l = true) : ∃ a b, l = a ++ marker ++ b := by
  induction l with
  | nil =>
    rw [show mentions [] = false by decide] at h
    cases h
  | cons c l ih =>
    rw [mentions, Bool.or_eq_true] at h
    rcases h with h | h
    · obtain ⟨b, hb⟩ := List.isPrefixOf_iff_prefix.1 h
      exact ⟨[], b, by rw [← hb]; rfl⟩
    · obtain ⟨a, b, hab⟩ := ih h
      exact ⟨c :: a, b, by rw [hab]; rfl⟩

theorem numbers_skip (pre post : List (List Char)) (l : List Char) (h : mentions l = false) : numbers (pre ++ l :: post) = numbers (pre ++ post) := by
  induction pre with
  | nil => simp only [List.nil_append, numbers, h, Bool.false_eq_true, if_false]
  | cons x pre ih => simp only [List.cons_append, numbers, ih]

/-- **C185, other lines.** Lines anywhere in a file, that do not contain `ESL_VERSION_`, do not change what Python reads. -/
theorem C185_lines (pre post : List (List Char)) (l : List Char) (hne : pre ++ post ≠ []) (hn : ∀ x ∈ pre ++ l :: post, '\n' ∉ x) (hl : ∀ a b, l ≠ a ++ ['E', 'S', 'L', '_', 'V', 'E', 'R', 'S', 'I', 'O', 'N', '_'] ++ b) :
    readVersion (Spec.lines (pre ++ l :: post)) = readVersion (Spec.lines (pre ++ post)) := by
  unfold readVersion
  rw [split_lines _ (by simp) hn, split_lines _ hne fun x hx => hn x ?_]
  · refine numbers_skip pre post l ?_
    rcases hm : mentions l with _ | _
    · rfl
    · obtain ⟨a, b, hab⟩ := mentions_iff l hm
      exact absurd hab (hl a b)
  · rcases List.mem_append.1 hx with hx | hx
    · exact List.mem_append_left _ hx
    · exact List.mem_append_right _ (List.mem_cons_of_mem _ hx)

example : readVersion (Spec.lines ["// the version".toList, (Line.definition major ['1']).text, [], (Line.definition minor ['2']).text]) = .ok [1, 2] := by decide +kernel

end Esl.Version
