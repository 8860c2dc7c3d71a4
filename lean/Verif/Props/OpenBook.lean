import Verif.Model.OpenBook
import Mathlib.Algebra.Order.Field.Rat
import Mathlib.Data.List.TakeWhile
import Mathlib.Tactic.FieldSimp
import Mathlib.Tactic.Ring
import Mathlib.Tactic.Linarith
/-! C65: fields and times of OpenBook messages; C80: which messages the main session consists of; C81: their prices. -/
namespace Esl.OpenBook

/-! ## What a message means -/

/-- A big-endian number. -/
def Spec.bigEndian (bytes : List Nat) : Nat := bytes.foldl (fun n b => 256 * n + b) 0

/-- A field of a message: the bytes from a position on. -/
def Spec.bytes (m : List Nat) (position size : Nat) : List Nat := (m.drop position).take size

/-- A numeric field of a message. -/
def Spec.field (m : List Nat) (position size : Nat) : Nat := Spec.bigEndian (Spec.bytes m position size)

/-- A byte of a message. -/
def Spec.byte (m : List Nat) (position : Nat) : Nat := m[position]?.getD 0

/-- The characters for space, tab, line feed, vertical tab, form feed and carriage return. -/
def Spec.IsSpace (c : Nat) : Prop := c ∈ [32, 9, 10, 11, 12, 13]

/-- A text without the spaces at its end. -/
def Spec.TrimmedTo (s t : List Nat) : Prop := ∃ spaces, s = t ++ spaces ∧ (∀ c ∈ spaces, Spec.IsSpace c) ∧ ∀ c, t.getLast? = some c → ¬Spec.IsSpace c

theorem isSpace_iff (c : Nat) : isSpace c = true ↔ Spec.IsSpace c := by
  simp [isSpace, Spec.IsSpace]; omega

/-- Messages that tell about the book: full updates and delta updates. -/
def Spec.isUpdate (m : List Nat) : Prop := Spec.field m 4 2 = 230 ∨ Spec.field m 4 2 = 231

instance (m : List Nat) : Decidable (Spec.isUpdate m) := by unfold Spec.isUpdate; infer_instance

/-- The time of a message in microseconds: there is a number of milliseconds, and a number of further microseconds. -/
def Spec.time (m : List Nat) : Nat := Spec.field m 27 4 * 1000 + Spec.field m 31 2

/-! ## The bytes -/

theorem swapAt_ends (pre mid post : List Nat) (x y : Nat) :
    swapAt (pre ++ (x :: (mid ++ [y])) ++ post) pre.length (pre.length + (x :: (mid ++ [y])).length - 1) = .ok ((pre ++ [y]) ++ mid ++ (x :: post)) := by
  unfold swapAt
  have e : pre.length + (x :: (mid ++ [y])).length - 1 = pre.length + 1 + mid.length := by simp; omega
  rw [e]
  have h1 : (pre ++ (x :: (mid ++ [y])) ++ post)[pre.length]? = some x := by simp
  have h2 : (pre ++ (x :: (mid ++ [y])) ++ post)[pre.length + 1 + mid.length]? = some y := by
    have : pre ++ (x :: (mid ++ [y])) ++ post = (pre ++ [x] ++ mid) ++ (y :: post) := by simp
    rw [this, List.getElem?_append_right (by simp; omega)]
    have e2 : pre.length + 1 + mid.length - (pre ++ [x] ++ mid).length = 0 := by simp; omega
    rw [e2]; rfl
  rw [h1, h2]
  simp only
  congr 1
  have e3 : (pre ++ (x :: (mid ++ [y])) ++ post).set pre.length y = (pre ++ [y] ++ mid) ++ (y :: post) := by
    simp [List.set_append]
  rw [e3, List.set_append_right _ _ (by simp; omega)]
  have e4 : pre.length + 1 + mid.length - (pre ++ [y] ++ mid).length = 0 := by simp; omega
  rw [e4]; simp

theorem swapLoop_reverse (fuel : Nat) (pre mid post : List Nat) (h : mid.length ≤ 2 * fuel + 1) :
    swapLoop fuel pre.length (pre.length + mid.length - 1) (pre ++ mid ++ post) = .ok (pre ++ mid.reverse ++ post) := by
  induction fuel generalizing pre mid post with
  | zero =>
    match mid, h with
    | [], _ => rfl
    | [x], _ => rfl
    | _ :: _ :: _, h => simp at h
  | succ fuel ih =>
    match mid, h with
    | [], _ => unfold swapLoop; rw [if_neg (by simp)]; rfl
    | [x], _ => unfold swapLoop; rw [if_neg (by simp)]; rfl
    | x :: z :: tail, h =>
      obtain ⟨m, y, hm⟩ : ∃ m y, z :: tail = m ++ [y] := ⟨_, _, (List.dropLast_concat_getLast (by simp : z :: tail ≠ [])).symm⟩
      rw [hm] at h ⊢
      unfold swapLoop
      rw [if_pos (by simp), swapAt_ends]
      simp only [Outcome.bind_ok]
      have := ih (pre ++ [y]) m (x :: post) (by simp at h; omega)
      have e : pre.length + (x :: (m ++ [y])).length - 1 - 1 = (pre ++ [y]).length + m.length - 1 := by
        simp only [List.length_append, List.length_cons, List.length_nil]; omega
      have e2 : pre.length + 1 = (pre ++ [y]).length := by simp
      rw [e, e2, this]
      simp

theorem convert_eq (b : Buffer) (p n : Nat) (h : p + n ≤ b.length) : convert b p n = .ok (b.take p ++ ((b.drop p).take n).reverse ++ b.drop (p + n)) := by
  unfold convert
  have hb : b = b.take p ++ (b.drop p).take n ++ b.drop (p + n) := by
    rw [List.append_assoc, ← List.drop_drop, List.take_append_drop, List.take_append_drop]
  have hl : (b.take p).length = p := by simp; omega
  have hm : ((b.drop p).take n).length = n := by simp; omega
  have := swapLoop_reverse n (b.take p) ((b.drop p).take n) (b.drop (p + n)) (by omega)
  rw [hl, hm, ← hb] at this
  exact this

theorem littleEndian_snoc (l : List Nat) (x : Nat) : littleEndian (l ++ [x]) = littleEndian l + 256 ^ l.length * x := by
  induction l with
  | nil => simp [littleEndian]
  | cons y l ih =>
    simp only [List.cons_append, littleEndian, ih, List.length_cons]
    rw [Nat.pow_succ, Nat.mul_add, Nat.mul_right_comm, Nat.mul_comm 256 (256 ^ l.length * x)]
    rw [Nat.mul_right_comm]; omega

theorem bigEndian_foldl (l : List Nat) (a : Nat) : l.foldl (fun n b => 256 * n + b) a = 256 ^ l.length * a + Spec.bigEndian l := by
  unfold Spec.bigEndian
  induction l generalizing a with
  | nil => simp
  | cons x l ih =>
    simp only [List.foldl_cons, List.length_cons]
    rw [ih (256 * a + x), ih (256 * 0 + x), Nat.pow_succ, Nat.mul_add]
    simp only [Nat.mul_zero, Nat.zero_add]
    rw [Nat.mul_assoc]; omega

theorem littleEndian_reverse (l : List Nat) : littleEndian l.reverse = Spec.bigEndian l := by
  induction l with
  | nil => rfl
  | cons x l ih =>
    rw [List.reverse_cons, littleEndian_snoc, ih, List.length_reverse]
    have := bigEndian_foldl l (256 * 0 + x)
    simp only [Nat.mul_zero, Nat.zero_add] at this
    have e : Spec.bigEndian (x :: l) = l.foldl (fun n b => 256 * n + b) x := by simp [Spec.bigEndian]
    rw [e, this]; omega

/-- Everything that is known about a buffer after a conversion. -/
theorem convert_spec (b : Buffer) (p n : Nat) (h : p + n ≤ b.length) : ∃ b', convert b p n = .ok b' ∧ b'.length = b.length ∧ read b' p n = Spec.field b p n ∧
    (∀ q k, q + k ≤ p ∨ p + n ≤ q → (b'.drop q).take k = (b.drop q).take k) ∧ (∀ i, i < p ∨ p + n ≤ i → b'[i]? = b[i]?) := by
  have hget : ∀ i, i < p ∨ p + n ≤ i → (b.take p ++ ((b.drop p).take n).reverse ++ b.drop (p + n))[i]? = b[i]? := by
    intro i hi
    have hl : (b.take p).length = p := by simp; omega
    have hm : ((b.drop p).take n).reverse.length = n := by simp; omega
    rcases hi with hi | hi
    · rw [List.append_assoc, List.getElem?_append_left (by omega), List.getElem?_take_of_lt hi]
    · rw [List.getElem?_append_right (by rw [List.length_append]; omega), List.length_append, hl, hm, List.getElem?_drop]
      congr 1; omega
  refine ⟨_, convert_eq b p n h, by simp; omega, ?_, ?_, hget⟩
  · unfold read Spec.field Spec.bytes
    rw [← littleEndian_reverse]
    congr 1
    have hl : (b.take p).length = p := by simp; omega
    have hm : ((b.drop p).take n).reverse.length = n := by simp; omega
    rw [List.append_assoc, List.drop_append_of_le_length (by omega), List.drop_of_length_le (by omega), List.nil_append, List.take_append_of_le_length (by omega), List.take_of_length_le (by omega)]
  · intro q k hq
    apply List.ext_getElem?
    intro i
    rw [List.getElem?_take, List.getElem?_take, List.getElem?_drop, List.getElem?_drop]
    split
    · exact hget _ (by omega)
    · rfl

/-- **C65, fields.** Converting a field of any size, anywhere in a buffer of any size, makes its value the big-endian number of its bytes, leaves every other byte alone, and never leaves the buffer. -/
theorem C65_field (b : Buffer) (position size : Nat) (h : position + size ≤ b.length) :
    ∃ b', convert b position size = .ok b' ∧ b'.length = b.length ∧ read b' position size = Spec.field b position size ∧ ∀ i, i < position ∨ position + size ≤ i → b'[i]? = b[i]? := by
  obtain ⟨b', h1, h2, h3, _, h5⟩ := convert_spec b position size h
  exact ⟨b', h1, h2, h3, h5⟩

example : Spec.field [9, 1, 2, 3, 4, 8] 1 4 = 0x01020304 ∧ convert [9, 1, 2, 3, 4, 8] 1 4 = .ok [9, 4, 3, 2, 1, 8] := by decide

theorem trimRight_spec (s : List Nat) : Spec.TrimmedTo s (trimRight s) := by
  unfold trimRight
  refine ⟨(s.reverse.takeWhile isSpace).reverse, ?_, ?_, ?_⟩
  · rw [← List.reverse_append, List.takeWhile_append_dropWhile, List.reverse_reverse]
  · intro c hc
    rw [List.mem_reverse] at hc
    exact (isSpace_iff c).1 (List.mem_takeWhile_imp hc)
  · intro c hc
    rw [List.getLast?_reverse] at hc
    cases hd : s.reverse.dropWhile isSpace with
    | nil => rw [hd] at hc; cases hc
    | cons y ys =>
      rw [hd] at hc
      injection hc with hc
      subst hc
      have := List.head?_dropWhile_not isSpace s.reverse
      rw [hd] at this
      rw [← isSpace_iff]
      simpa using this

/-- What a message is decoded to: everything but the time. -/
structure Spec.Means (m : List Nat) (e : Event) : Prop where
  symbol : Spec.TrimmedTo (Spec.bytes m 10 11) e.symbol
  status : e.status = Spec.byte m 34
  reason : e.reason = Spec.byte m 57
  side : e.side = .buy ↔ Spec.byte m 55 = 66
  quantity : e.quantity = Spec.field m 49 4
  cents : e.cents = Spec.field m 41 4
  lot : e.lot * 100 = 10 ^ Spec.byte m 40

theorem lotOf_ok (scale : Nat) (h1 : 2 ≤ scale) (h2 : scale ≤ 11) : ∃ lot, lotOf scale = .ok lot ∧ lot * 100 = 10 ^ scale := by
  have : scale = 2 ∨ scale = 3 ∨ scale = 4 ∨ scale = 5 ∨ scale = 6 ∨ scale = 7 ∨ scale = 8 ∨ scale = 9 ∨ scale = 10 ∨ scale = 11 := by omega
  rcases this with h | h | h | h | h | h | h | h | h | h <;> subst h <;> exact ⟨_, rfl, rfl⟩

theorem lotOf_zero (scale : Nat) (h : scale < 2) : lotOf scale = .throws := by
  have : scale = 0 ∨ scale = 1 := by omega
  rcases this with rfl | rfl <;> rfl

theorem lotOf_large (scale : Nat) (h : 12 ≤ scale) : lotOf scale = .ub := by
  unfold lotOf
  have h1 : 10 ^ 12 ≤ 10 ^ scale := Nat.pow_le_pow_right (by decide) h
  have h2 : 10 ^ 12 / 100 ≤ 10 ^ scale / 100 := Nat.div_le_div_right h1
  have h3 : 2 ^ 32 ≤ 10 ^ 12 / 100 := by decide
  exact if_pos (Nat.le_trans h3 h2)

theorem getElem?_byte (m : List Nat) (h : m.length = 71) (i : Nat) (hi : i < 71) : m[i]? = some (Spec.byte m i) := by
  unfold Spec.byte
  rw [List.getElem?_eq_getElem (by omega)]
  rfl

/-- What the function does with a message. -/
theorem readMessage_eq (m : List Nat) (h : m.length = 71) : readMessage m =
    if Spec.isUpdate m then
      lotOf (Spec.byte m 40) >>= fun lot => .ok (some
        { symbol := trimRight (Spec.bytes m 10 11), status := Spec.byte m 34, reason := Spec.byte m 57, time := Spec.time m % 2 ^ 32, cents := Spec.field m 41 4, lot := lot,
          quantity := Spec.field m 49 4, side := if Spec.byte m 55 = 66 then .buy else .sell })
    else .ok none := by
  unfold readMessage
  obtain ⟨b1, e1, l1, r1, o1, g1⟩ := convert_spec m 4 2 (by omega)
  rw [e1]
  simp only [Outcome.bind_ok]
  rw [r1]
  by_cases hu : Spec.isUpdate m
  · rw [if_pos hu, if_neg (by unfold Spec.isUpdate at hu; omega)]
    obtain ⟨b2, e2, l2, r2, o2, g2⟩ := convert_spec b1 27 4 (by omega)
    rw [e2]
    simp only [Outcome.bind_ok]
    obtain ⟨b3, e3, l3, r3, o3, g3⟩ := convert_spec b2 31 2 (by omega)
    rw [e3]
    simp only [Outcome.bind_ok]
    obtain ⟨b4, e4, l4, r4, o4, g4⟩ := convert_spec b3 41 4 (by omega)
    rw [e4]
    simp only [Outcome.bind_ok]
    obtain ⟨b5, e5, l5, r5, o5, g5⟩ := convert_spec b4 49 4 (by omega)
    rw [e5]
    simp only [Outcome.bind_ok]
    have get : ∀ i, i = 34 ∨ i = 40 ∨ i = 55 ∨ i = 57 → b5[i]? = some (Spec.byte m i) := by
      intro i hi
      rw [g5 i (by omega), g4 i (by omega), g3 i (by omega), g2 i (by omega), g1 i (by omega)]
      exact getElem?_byte m h i (by omega)
    rw [get 34 (by simp), get 40 (by simp), get 55 (by simp), get 57 (by simp)]
    simp only
    have t1 : read b5 27 4 = Spec.field m 27 4 := by
      have : read b5 27 4 = read b2 27 4 := by
        unfold read
        rw [o5 27 4 (by omega), o4 27 4 (by omega), o3 27 4 (by omega)]
      rw [this, r2]
      unfold Spec.field Spec.bytes
      rw [o1 27 4 (by omega)]
    have t2 : read b5 31 2 = Spec.field m 31 2 := by
      have : read b5 31 2 = read b3 31 2 := by
        unfold read
        rw [o5 31 2 (by omega), o4 31 2 (by omega)]
      rw [this, r3]
      unfold Spec.field Spec.bytes
      rw [o2 31 2 (by omega), o1 31 2 (by omega)]
    have t3 : read b5 41 4 = Spec.field m 41 4 := by
      have : read b5 41 4 = read b4 41 4 := by
        unfold read
        rw [o5 41 4 (by omega)]
      rw [this, r4]
      unfold Spec.field Spec.bytes
      rw [o3 41 4 (by omega), o2 41 4 (by omega), o1 41 4 (by omega)]
    have t4 : read b5 49 4 = Spec.field m 49 4 := by
      rw [r5]
      unfold Spec.field Spec.bytes
      rw [o4 49 4 (by omega), o3 49 4 (by omega), o2 49 4 (by omega), o1 49 4 (by omega)]
    have t5 : (b1.drop 10).take 11 = Spec.bytes m 10 11 := by
      rw [o1 10 11 (by omega)]; rfl
    rw [t1, t2, t3, t4, t5]
    have t6 : (Spec.field m 27 4 * 1000 % 2 ^ 32 + Spec.field m 31 2) % 2 ^ 32 = Spec.time m % 2 ^ 32 := by
      unfold Spec.time
      rw [Nat.add_mod, Nat.mod_mod, ← Nat.add_mod]
    rw [t6]
  · rw [if_neg hu, if_pos (by unfold Spec.isUpdate at hu; omega)]

/-- **C65 (partial).** Every update message whose scale code is from two to eleven is decoded: each field to the big-endian number of its bytes, in its place, with the right side, symbol, and status; and its time is
milliseconds times thousand plus microseconds if that is less than `2^32`. Other messages are skipped. Missing: later times (see the counterexample), other scales (see C81). -/
theorem C65_message_partial (m : List Nat) (h : m.length = 71) :
    (¬Spec.isUpdate m → readMessage m = .ok none) ∧
    (Spec.isUpdate m → 2 ≤ Spec.byte m 40 → Spec.byte m 40 ≤ 11 → ∃ e, readMessage m = .ok (some e) ∧ Spec.Means m e ∧ (Spec.time m < 2 ^ 32 → e.time = Spec.time m)) := by
  rw [readMessage_eq m h]
  constructor
  · intro hu; rw [if_neg hu]
  · intro hu h1 h2
    obtain ⟨lot, hl, hl2⟩ := lotOf_ok _ h1 h2
    rw [if_pos hu, hl]
    refine ⟨_, rfl, ⟨trimRight_spec _, rfl, rfl, ?_, rfl, rfl, hl2⟩, fun ht => Nat.mod_eq_of_lt ht⟩
    by_cases hs : Spec.byte m 55 = 66 <;> simp [hs]

/-- A message: a delta update of `IBM`, at the given milliseconds and seven microseconds; one share at 101.25 dollars is bought. -/
def opening (ms : List Nat) : List Nat :=
  [0, 0, 0, 0, 0, 231, 0, 0, 0, 0, 73, 66, 77, 32, 32, 32, 32, 32, 32, 32, 32, 0, 0, 0, 0, 0, 0] ++ ms ++ [0, 7, 32, 79, 0, 0, 0, 0, 0, 4] ++ [0, 15, 115, 20] ++
  [0, 0, 0, 0, 0, 0, 0, 1, 0, 0, 66, 0, 79, 0, 0, 0, 0, 0, 0, 0, 0, 0, 0, 0, 0, 0]

/-- Non-vacuity: this message at one hour after midnight. -/
example : (opening [0, 54, 238, 128]).length = 71 ∧ Spec.isUpdate (opening [0, 54, 238, 128]) ∧ Spec.byte (opening [0, 54, 238, 128]) 40 = 4 ∧ Spec.time (opening [0, 54, 238, 128]) = 3600000007 ∧
    readMessage (opening [0, 54, 238, 128]) =
      .ok (some { symbol := [73, 66, 77], status := 79, reason := 79, time := 3600000007, cents := 1012500, lot := 100, quantity := 1, side := .buy }) := by
  decide +kernel

/-- **C65, negation.** Whenever a message is decoded whose time is 4 294 968 milliseconds after midnight or later, that is an hour and twelve minutes, its time is wrong. -/
theorem C65_counterexample_time (m : List Nat) (h : m.length = 71) (ht : 4294968 ≤ Spec.field m 27 4) (e : Event) (he : readMessage m = .ok (some e)) : e.time ≠ Spec.time m := by
  rw [readMessage_eq m h] at he
  have hb : 2 ^ 32 ≤ Spec.time m := by unfold Spec.time; omega
  have hlt : Spec.time m % 2 ^ 32 < 2 ^ 32 := Nat.mod_lt _ (by decide)
  split at he
  · cases hl : lotOf (Spec.byte m 40) with
    | ok lot =>
      rw [hl] at he
      injection he with he
      injection he with he
      rw [← he]
      simp only
      omega
    | throws => rw [hl] at he; cases he
    | ub => rw [hl] at he; cases he
  · cases he

/-- The hypotheses are met by the message at the opening of the market, half past nine, which is reported as one at nine minutes past one. -/
example : Spec.field (opening [2, 9, 217, 192]) 27 4 = 34200000 ∧ readMessage (opening [2, 9, 217, 192]) =
    .ok (some { symbol := [73, 66, 77], status := 79, reason := 79, time := 34200000007 - 7 * 2 ^ 32, cents := 1012500, lot := 100, quantity := 1, side := .buy }) := by
  decide +kernel

/-! ## C80: the main session -/

/-- The messages of a file: each 71 bytes long; an incomplete one at the end is not a message. -/
def Spec.messages (file : List Nat) : List (List Nat) := (List.range (file.length / 71)).map fun i => (file.drop (71 * i)).take 71

/-- The event of an update with an acceptable scale. -/
def decoded (m : List Nat) : Option Event := match readMessage m with | .ok e => e | _ => none

theorem readLoop_ok (n : Nat) (file : List Nat) (h : 71 * n ≤ file.length)
    (hs : ∀ i, i < n → Spec.isUpdate ((file.drop (71 * i)).take 71) → 2 ≤ Spec.byte ((file.drop (71 * i)).take 71) 40 ∧ Spec.byte ((file.drop (71 * i)).take 71) 40 ≤ 11) :
    readLoop n file = .ok (((List.range n).map fun i => (file.drop (71 * i)).take 71).filterMap decoded) := by
  induction n generalizing file with
  | zero => rfl
  | succ n ih =>
    unfold readLoop
    have hl : (file.take 71).length = 71 := by simp; omega
    have hm : ∃ e, readMessage (file.take 71) = .ok e := by
      by_cases hu : Spec.isUpdate (file.take 71)
      · have := hs 0 (by omega) (by simpa using hu)
        simp only [Nat.mul_zero, List.drop_zero] at this
        obtain ⟨e, he, _⟩ := (C65_message_partial _ hl).2 hu this.1 this.2
        exact ⟨_, he⟩
      · exact ⟨_, (C65_message_partial _ hl).1 hu⟩
    obtain ⟨e, he⟩ := hm
    have hd : ∀ i, ((file.drop 71).drop (71 * i)).take 71 = (file.drop (71 * (i + 1))).take 71 := by
      intro i; rw [List.drop_drop]; congr 2; omega
    rw [he, Outcome.bind_ok, ih (file.drop 71) (by simp; omega) (by
      intro i hi hu
      rw [hd] at hu ⊢
      exact hs (i + 1) (by omega) hu)]
    simp only [Outcome.bind_ok, hd]
    rw [List.range_succ_eq_map, List.map_cons, List.map_map, List.filterMap_cons]
    have hev : decoded (file.take 71) = e := by unfold decoded; rw [he]
    simp only [Nat.mul_zero, List.drop_zero, hev]
    cases e <;> rfl

theorem keep_foldl (filter : List Nat) (es acc : List Event) :
    es.foldl (keep filter) acc = acc ++ es.filter fun e => e.status == 79 && (e.reason == 79 || e.reason == 67) && e.symbol == filter := by
  induction es generalizing acc with
  | nil => simp
  | cons e es ih =>
    rw [List.foldl_cons, ih, List.filter_cons]
    unfold keep
    by_cases h1 : e.status = 79
    · by_cases h2 : e.reason = 79 ∨ e.reason = 67
      · by_cases h3 : e.symbol = filter
        · rw [if_neg (by simpa using h1), if_neg (by omega), if_neg (by simp [h3])]
          have : (e.status == 79 && (e.reason == 79 || e.reason == 67) && e.symbol == filter) = true := by simp [h1, h2, h3]
          rw [this]; simp
        · rw [if_neg (by simpa using h1), if_neg (by omega), if_pos (fun e => h3 e.symm)]
          have : (e.status == 79 && (e.reason == 79 || e.reason == 67) && e.symbol == filter) = false := by simp [h3]
          rw [this]; simp
      · rw [if_neg (by simpa using h1), if_pos (by omega)]
        have : (e.status == 79 && (e.reason == 79 || e.reason == 67) && e.symbol == filter) = false := by
          have a : e.reason ≠ 79 := fun h => h2 (Or.inl h)
          have b : e.reason ≠ 67 := fun h => h2 (Or.inr h)
          simp [a, b]
        rw [this]; simp
    · rw [if_pos h1]
      have : (e.status == 79 && (e.reason == 79 || e.reason == 67) && e.symbol == filter) = false := by simp [h1]
      rw [this]; simp

/-- `t` is a message that belongs to the main session of a symbol: an update, while the market is open, for a new order or a cancellation. -/
def Spec.Selected (symbol m : List Nat) : Prop :=
  Spec.isUpdate m ∧ Spec.byte m 34 = 79 ∧ (Spec.byte m 57 = 79 ∨ Spec.byte m 57 = 67) ∧ Spec.TrimmedTo (Spec.bytes m 10 11) symbol

theorem trimmed_unique (s t u : List Nat) (h1 : Spec.TrimmedTo s t) (h2 : Spec.TrimmedTo s u) : t = u := by
  have key : ∀ t, Spec.TrimmedTo s t → t = trimRight s := by
    rintro t ⟨spaces, rfl, hs, hl⟩
    unfold trimRight
    rw [List.reverse_append]
    have : (spaces.reverse ++ t.reverse).dropWhile isSpace = t.reverse.dropWhile isSpace := by
      apply List.dropWhile_append_of_pos
      intro c hc
      exact (isSpace_iff c).2 (hs c (List.mem_reverse.1 hc))
    rw [this]
    have h3 : t.reverse.dropWhile isSpace = t.reverse := by
      cases hr : t.reverse with
      | nil => rfl
      | cons c cs =>
        rw [List.dropWhile_cons, if_neg]
        have : t.getLast? = some c := by rw [← List.head?_reverse, hr]; rfl
        rw [isSpace_iff]; exact hl c this
    rw [h3, List.reverse_reverse]
  rw [key t h1, key u h2]

open Classical in
/-- **C80.** For every file whose updates have scale codes from two to eleven, the main session of a symbol is the list of exactly those messages that are selected, each decoded, in the order of the file: there is one
entry per selected message, and none for any other. -/
theorem C80_main_session (file : List Nat) (symbol : List Nat)
    (hs : ∀ m ∈ Spec.messages file, Spec.isUpdate m → 2 ≤ Spec.byte m 40 ∧ Spec.byte m 40 ≤ 11) :
    ∃ session, mainSession file symbol = .ok session ∧
      List.Forall₂ (fun m e => Spec.Means m e ∧ e.symbol = symbol ∧ (Spec.time m < 2 ^ 32 → e.time = Spec.time m)) ((Spec.messages file).filter fun m => decide (Spec.Selected symbol m)) session := by
  have hrun : readOpenbook file = .ok ((Spec.messages file).filterMap decoded) := by
    unfold readOpenbook Spec.messages
    apply readLoop_ok _ _ (Nat.mul_div_le _ _)
    intro i hi
    exact hs _ (List.mem_map.2 ⟨i, List.mem_range.2 hi, rfl⟩)
  have hlen : ∀ m ∈ Spec.messages file, m.length = 71 := by
    intro m hm
    obtain ⟨i, hi, rfl⟩ := List.mem_map.1 hm
    rw [List.mem_range] at hi
    have := Nat.mul_div_le file.length 71
    have : 71 * (i + 1) ≤ 71 * (file.length / 71) := Nat.mul_le_mul_left _ hi
    simp; omega
  refine ⟨((Spec.messages file).filterMap decoded).filter fun e => e.status == 79 && (e.reason == 79 || e.reason == 67) && e.symbol == symbol, ?_, ?_⟩
  · unfold mainSession
    rw [hrun, Outcome.bind_ok, keep_foldl, List.nil_append]
  · generalize Spec.messages file = ms at hs hlen
    clear hrun
    induction ms with
    | nil => exact List.Forall₂.nil
    | cons m ms ih =>
      have ih := ih (fun m hm => hs m (List.mem_cons_of_mem _ hm)) (fun m hm => hlen m (List.mem_cons_of_mem _ hm))
      have hl := hlen m (by simp)
      have hh := C65_message_partial m hl
      rw [List.filter_cons]
      by_cases hu : Spec.isUpdate m
      · obtain ⟨e, he, hm, htm⟩ := hh.2 hu (hs m (by simp) hu).1 (hs m (by simp) hu).2
        have hev : decoded m = some e := by unfold decoded; rw [he]
        rw [List.filterMap_cons, hev]
        simp only
        rw [List.filter_cons]
        by_cases hsel : Spec.Selected symbol m
        · have hsym : e.symbol = symbol := trimmed_unique _ _ _ hm.symbol hsel.2.2.2
          have : (e.status == 79 && (e.reason == 79 || e.reason == 67) && e.symbol == symbol) = true := by
            rw [hm.status, hm.reason, hsym]
            simp [hsel.2.1, hsel.2.2.1]
          rw [this, if_pos (by simpa using hsel), if_pos rfl]
          exact List.Forall₂.cons ⟨hm, hsym, htm⟩ ih
        · have : (e.status == 79 && (e.reason == 79 || e.reason == 67) && e.symbol == symbol) = false := by
            rw [Bool.eq_false_iff]
            intro ht
            simp only [Bool.and_eq_true, Bool.or_eq_true, beq_iff_eq] at ht
            refine hsel ⟨hu, ?_, ?_, ?_⟩
            · rw [← hm.status]; exact ht.1.1
            · rw [← hm.reason]; exact ht.1.2
            · rw [← ht.2]; exact hm.symbol
          rw [this, if_neg (by simpa using hsel)]
          exact ih
      · have hev : decoded m = none := by unfold decoded; rw [hh.1 hu]
        rw [List.filterMap_cons, hev, if_neg (by simpa using fun hsel : Spec.Selected symbol m => hu hsel.1)]
        exact ih

/-- Non-vacuity: a file with two messages and an incomplete one. -/
example : (∀ m ∈ Spec.messages (opening [0, 54, 238, 128] ++ opening [0, 54, 238, 129] ++ [0, 1, 2]), Spec.isUpdate m → 2 ≤ Spec.byte m 40 ∧ Spec.byte m 40 ≤ 11) ∧
    (mainSession (opening [0, 54, 238, 128] ++ opening [0, 54, 238, 129] ++ [0, 1, 2]) [73, 66, 77]) = .ok
      [{ symbol := [73, 66, 77], status := 79, reason := 79, time := 3600000007, cents := 1012500, lot := 100, quantity := 1, side := .buy },
       { symbol := [73, 66, 77], status := 79, reason := 79, time := 3600001007, cents := 1012500, lot := 100, quantity := 1, side := .buy }] := by
  decide +kernel

/-! ## C81: prices -/

/-- **C81 (partial).** The price per share of a decoded event, `cents / 100 / lot` dollars, is the numerator of the message divided by ten to the power of its scale code. Missing: scale codes below two; see the
counterexample. -/
theorem C81_price_partial (m : List Nat) (h : m.length = 71) (e : Event) (he : readMessage m = .ok (some e)) :
    ((e.cents : Rat) / 100) / e.lot = (Spec.field m 41 4 : Rat) / 10 ^ Spec.byte m 40 := by
  have hu : Spec.isUpdate m := by
    by_contra hu
    rw [(C65_message_partial m h).1 hu] at he
    cases he
  have h2 : 2 ≤ Spec.byte m 40 := by
    by_contra hlt
    rw [readMessage_eq m h, if_pos hu, lotOf_zero _ (by omega)] at he
    cases he
  have h11 : Spec.byte m 40 ≤ 11 := by
    by_contra hlt
    rw [readMessage_eq m h, if_pos hu, lotOf_large _ (by omega)] at he
    cases he
  obtain ⟨e', he', hm, _⟩ := (C65_message_partial m h).2 hu h2 h11
  rw [he] at he'
  injection he' with he'
  injection he' with he'
  subst he'
  have hl : (e.lot : Rat) * 100 = 10 ^ Spec.byte m 40 := by exact_mod_cast hm.lot
  rw [hm.cents, div_div, ← hl, mul_comm]

/-- **C81, negation.** An update with a price of at most one digit after the decimal point, such as a price in whole dollars, is not decoded: the function throws, and so does every reading of a file that contains such a
message (before any of undefined behaviour). -/
theorem C81_counterexample_scale (m : List Nat) (h : m.length = 71) (hu : Spec.isUpdate m) (hs : Spec.byte m 40 < 2) (rest : List Nat) :
    readMessage m = .throws ∧ readOpenbook (m ++ rest) = .throws ∧ ∀ symbol, mainSession (m ++ rest) symbol = .throws := by
  have h1 : readMessage m = .throws := by
    rw [readMessage_eq m h, if_pos hu, lotOf_zero _ hs]; rfl
  have h2 : readOpenbook (m ++ rest) = .throws := by
    unfold readOpenbook
    obtain ⟨k, hk⟩ : ∃ k, (m ++ rest).length / 71 = k + 1 := ⟨(m ++ rest).length / 71 - 1, by rw [List.length_append]; omega⟩
    rw [hk]
    unfold readLoop
    rw [List.take_append_of_le_length (by omega), List.take_of_length_le (by omega), h1]
    rfl
  exact ⟨h1, h2, fun symbol => by unfold mainSession; rw [h2]; rfl⟩

/-- The hypotheses are met: the message above, with a scale code of zero. -/
example : ((opening [0, 54, 238, 128]).set 40 0).length = 71 ∧ Spec.isUpdate ((opening [0, 54, 238, 128]).set 40 0) ∧ Spec.byte ((opening [0, 54, 238, 128]).set 40 0) 40 = 0 := by decide

end Esl.OpenBook
