import Verif.Model.Serialization
import Verif.Lemmas.Identity
/-! C66: saving and loading gives values back; C82: messages that are saved and loaded; C83: parametrizations. -/
namespace Esl.Archive

/-- A value is given back: whatever object it is loaded into, and whatever follows in the archive, the object becomes the value, and exactly the items that were written for it are read. -/
def Spec.RoundTrips {α : Type} (c : Codec α) (v : α) : Prop := ∀ target rest, c.load target (c.save v ++ rest) = .ok (v, rest)

/-! ## Sequences and tuples -/

theorem nat_roundTrips (n : Nat) : Spec.RoundTrips natCodec n := by
  intro t rest
  simp [natCodec, readNat, readInt]

theorem text_roundTrips (s : List Char) : Spec.RoundTrips textCodec s := by
  intro t rest
  simp [textCodec, readText]

theorem loadMany_save {α : Type} (c : Codec α) (blank : α) (xs : List α) (h : ∀ x ∈ xs, Spec.RoundTrips c x) (rest : List Item) :
    loadMany c blank xs.length (xs.flatMap c.save ++ rest) = .ok (xs, rest) := by
  induction xs with
  | nil => rfl
  | cons x xs ih =>
    rw [List.length_cons, List.flatMap_cons, List.append_assoc, loadMany, h x List.mem_cons_self]
    simp only [Outcome.bind_ok]
    rw [ih fun y hy => h y (List.mem_cons_of_mem _ hy)]
    rfl

/-- **C66, sequences.** A sequence is given back if its elements are. -/
theorem C66_sequence {α : Type} (c : Codec α) (blank : α) (xs : List α) (h : ∀ x ∈ xs, Spec.RoundTrips c x) : Spec.RoundTrips (vector c blank) xs := by
  intro t rest
  have : readNat (Item.int xs.length :: (xs.flatMap c.save ++ rest)) = .ok (xs.length, xs.flatMap c.save ++ rest) := by simp [readNat, readInt]
  simp only [vector, List.cons_append, this, Outcome.bind_ok]
  exact loadMany_save c blank xs h rest

/-- **C66, tuples.** A tuple is given back if its elements are. -/
theorem C66_tuple {α β : Type} (c : Codec α) (d : Codec β) (x : α) (y : β) (hx : Spec.RoundTrips c x) (hy : Spec.RoundTrips d y) : Spec.RoundTrips (pair c d) (x, y) := by
  intro t rest
  simp only [pair, List.append_assoc]
  rw [hx]
  simp only [Outcome.bind_ok]
  rw [hy]
  rfl

/-- **C66, identities and entities.** All identities, entities and quantities are given back. -/
theorem C66_entity (digits : List Nat) (children amount : Nat) :
    Spec.RoundTrips (vector natCodec 0) digits ∧ Spec.RoundTrips entity (digits, children) ∧ Spec.RoundTrips quantity amount :=
  have h := C66_sequence natCodec 0 digits fun x _ => nat_roundTrips x
  ⟨h, C66_tuple _ _ _ _ h (nat_roundTrips _), nat_roundTrips _⟩

example : entity.save ([3, 1, 4], 7) = [.int 3, .int 3, .int 1, .int 4, .int 7] ∧ entity.load ([9], 9) [.int 3, .int 3, .int 1, .int 4, .int 7, .int 8] = .ok (([3, 1, 4], 7), [.int 8]) := by decide

/-- **C66, currencies and jurisdictions.** All currencies, which have codes of three letters, and all jurisdictions are given back. -/
theorem C66_jurisdiction (sovereign : List Char) (tender : Currency) (h : tender.code.length = 3) : Spec.RoundTrips currency tender ∧ Spec.RoundTrips jurisdiction (sovereign, tender) := by
  have hc : Spec.RoundTrips currency tender := by
    intro t rest
    obtain ⟨code, d⟩ := tender
    replace h : code.length = 3 := h
    have h1 : readText ([Item.text code, Item.int d] ++ rest) = .ok (code, Item.int d :: rest) := rfl
    have h2 : readNat (Item.int d :: rest) = .ok (d, rest) := nat_roundTrips d 0 rest
    simp only [currency, h1, Outcome.bind_ok]
    rw [if_neg (by omega), h2]
    simp only [Outcome.bind_ok]
    rw [List.take_of_length_le (by omega)]
  exact ⟨hc, C66_tuple _ _ _ _ (text_roundTrips _) hc⟩

example : jurisdiction.load (['N', 'L'], ⟨['E', 'U', 'R'], 100⟩) (jurisdiction.save (['J', 'P'], ⟨['J', 'P', 'Y'], 1⟩)) = .ok ((['J', 'P'], ⟨['J', 'P', 'Y'], 1⟩), []) := by decide

/-- **C66, legal persons.** Legal entities, natural persons and governments are given back, whatever kind of person they are loaded into. -/
theorem C66_person (p : Person) : Spec.RoundTrips person p := by
  intro t rest
  cases p <;> simp [person, readNat, readInt, readText]

example : person.load (.natural ['N', 'L']) (person.save (.entity ['1', '2'] ['3'])) = .ok (.entity ['1', '2'] ['3'], []) := by decide

/-! ## Rational numbers -/

/-- The number is one of type `int`. -/
def Spec.FitsInt (z : Int) : Prop := -2 ^ 31 ≤ z ∧ z < 2 ^ 31

theorem toInt32_of_fits (z : Int) (h : Spec.FitsInt z) : toInt32 z = z := by
  unfold Spec.FitsInt at h
  unfold toInt32
  rw [Int.bmod_def]; split <;> omega

theorem toInt32_fits (z : Int) : Spec.FitsInt (toInt32 z) := by
  unfold toInt32 Spec.FitsInt
  rw [Int.bmod_def]; split <;> omega

theorem toInt32_mod (z : Int) : ∃ k, toInt32 z = z + 2 ^ 32 * k := by
  unfold toInt32
  rw [Int.bmod_def]
  split
  · exact ⟨-(z / ↑(2 ^ 32 : Nat)), by omega⟩
  · exact ⟨-(z / ↑(2 ^ 32 : Nat)) - 1, by omega⟩

theorem load_rational (r t : Ratio) (rest : List Item) : rational.load t (rational.save r ++ rest) = Ratio.make (toInt32 r.num) (toInt32 r.den) >>= fun r => .ok (r, rest) := by
  simp [rational, readInt]

theorem div_between (a g : Int) (hg : 0 < g) : (0 ≤ a → 0 ≤ a / g ∧ a / g ≤ a) ∧ (a < 0 → a ≤ a / g ∧ a / g < 0) := by
  constructor
  · intro h
    refine ⟨Int.ediv_nonneg h (by omega), Int.ediv_le_self _ h⟩
  · intro h
    refine ⟨?_, Int.ediv_neg_of_neg_of_pos h hg⟩
    apply Int.le_ediv_of_mul_le hg
    have := Int.mul_le_mul_of_nonpos_left (show a ≤ 0 by omega) (show (1 : Int) ≤ g by omega)
    omega

/-- **C66, rational numbers (partial).** A rational number in lowest terms is given back if and only if its numerator and its denominator both are in the range of `int`; for others, see the counterexample. -/
theorem C66_rational_partial (r : Ratio) (h : r.Valid) : Spec.RoundTrips rational r ↔ Spec.FitsInt r.num ∧ Spec.FitsInt r.den := by
  obtain ⟨n, d⟩ := r
  obtain ⟨hd, hg⟩ := h
  replace hd : 0 < d := hd
  replace hg : Int.gcd n d = 1 := hg
  show _ ↔ Spec.FitsInt n ∧ Spec.FitsInt d
  constructor
  · intro hr
    have := hr ⟨n, d⟩ []
    rw [load_rational] at this
    have hm : Ratio.make (toInt32 n) (toInt32 d) = .ok ⟨n, d⟩ := by
      cases hm : Ratio.make (toInt32 n) (toInt32 d) with
      | ok r => simp only [hm, Outcome.bind_ok] at this; injection this with this; injection this with this; rw [this]
      | throws => simp only [hm] at this; cases this
      | ub => simp only [hm] at this; cases this
    unfold Ratio.make at hm
    split at hm
    · cases hm
    · rename_i hd0
      have gpos : (0 : Int) < (Int.gcd (toInt32 n) (toInt32 d) : Int) := by
        have : 0 < Int.gcd (toInt32 n) (toInt32 d) := Int.gcd_pos_of_ne_zero_right _ hd0
        omega
      have bn := div_between (toInt32 n) _ gpos
      have bd := div_between (toInt32 d) _ gpos
      have fn := toInt32_fits n
      have fd := toInt32_fits d
      unfold Spec.FitsInt at *
      split at hm
      · rename_i hneg
        injection hm with hm
        injection hm with e1 e2
        -- the denominator was `2^31` or more, and became negative: then numbers are not both given back
        obtain ⟨k, hk⟩ := toInt32_mod n
        obtain ⟨l, hl⟩ := toInt32_mod d
        have hd31 : d ≤ 2 ^ 31 := by omega
        have hd' : d = 2 ^ 31 := by omega
        subst hd'
        have hden : toInt32 (2 ^ 31) = -2 ^ 31 := by decide
        rw [hden] at e1 e2 gpos
        -- the divisor is one
        have hg1 : (Int.gcd (toInt32 n) (-2 ^ 31) : Int) = 1 := by
          have hdvd : (Int.gcd (toInt32 n) (-2 ^ 31) : Int) ∣ -2 ^ 31 := Int.gcd_dvd_right ..
          obtain ⟨c, hc⟩ := hdvd
          generalize (Int.gcd (toInt32 n) (-2 ^ 31) : Int) = g at *
          have : (-2 ^ 31 : Int) / g = c := by
            rw [hc]; exact Int.mul_ediv_cancel_left _ (by omega)
          rw [this] at e2
          have hc' : c = -2 ^ 31 := by omega
          subst hc'
          omega
        rw [hg1, Int.ediv_one] at e1
        have hodd : n % 2 = 1 := by
          rcases Int.emod_two_eq n with h | h
          · exfalso
            have h1 : (2 : Int) ∣ n := Int.dvd_of_emod_eq_zero h
            have h2 : (2 : Int) ∣ Int.gcd n (2 ^ 31) := Int.dvd_coe_gcd h1 (by decide)
            rw [hg] at h2
            omega
          · exact h
        omega
      · injection hm with hm
        injection hm with e1 e2
        omega
  · rintro ⟨hn, hdf⟩ t rest
    rw [load_rational]
    have hm : Ratio.make n d = .ok ⟨n, d⟩ := by
      unfold Ratio.make
      rw [if_neg (by omega), hg]
      simp only [Int.natCast_one, Int.ediv_one]
      rw [if_neg (by omega)]
    simp only [toInt32_of_fits _ hn, toInt32_of_fits _ hdf, hm, Outcome.bind_ok]

/-- Both cases occur. -/
example : Ratio.Valid ⟨-7, 400⟩ ∧ Spec.FitsInt (-7) ∧ Spec.FitsInt 400 := by unfold Ratio.Valid Spec.FitsInt; decide

/-- **C66, rational numbers, negation.** An interest rate with a numerator of `2^32 + 1` becomes another rate, one whose denominator is `2^32` cannot be loaded. -/
theorem C66_counterexample_rational (t : Ratio) : Ratio.Valid ⟨2 ^ 32 + 1, 2⟩ ∧ rational.load t (rational.save ⟨2 ^ 32 + 1, 2⟩) = .ok (⟨1, 2⟩, []) ∧
    Ratio.Valid ⟨1, 2 ^ 32⟩ ∧ rational.load t (rational.save ⟨1, 2 ^ 32⟩) = .throws := by
  refine ⟨by unfold Ratio.Valid; decide, ?_, by unfold Ratio.Valid; decide, ?_⟩ <;> rfl

/-- **C66, interest rates (partial).** The same for interest rates with their compounding durations. -/
theorem C66_interest_rate_partial (r : Ratio) (h : r.Valid) (duration : Nat) : Spec.RoundTrips interestRate (r, duration) ↔ Spec.FitsInt r.num ∧ Spec.FitsInt r.den := by
  constructor
  · intro hr
    rw [← C66_rational_partial r h]
    intro t rest
    have := hr (t, 0) rest
    simp only [interestRate, pair, List.append_assoc] at this
    rw [load_rational] at this ⊢
    cases hm : Ratio.make (toInt32 r.num) (toInt32 r.den) with
    | ok q =>
      simp only [hm, Outcome.bind_ok] at this ⊢
      rw [nat_roundTrips] at this
      simp only [Outcome.bind_ok] at this
      injection this with this; injection this with this; injection this with this
      rw [this]
    | throws => simp only [hm] at this; cases this
    | ub => simp only [hm] at this; cases this
  · intro hf
    exact C66_tuple _ _ _ _ ((C66_rational_partial r h).2 hf) (nat_roundTrips _)

/-! ## Prices and quotes -/

/-- **C66, prices, negation.** Loading a price never changes it: for every saved price, the object keeps the value that it had. Hence a price is given back only if it is loaded into an equal one. -/
theorem C66_counterexample_price (saved target : Price) (rest : List Item) : price.load target (price.save saved ++ rest) = .ok (target, rest) ∧ ¬Spec.RoundTrips price saved := by
  have h : ∀ t : Price, price.load t (price.save saved ++ rest) = .ok (t, rest) := fun t => by simp [price, readText]
  refine ⟨h _, fun hr => ?_⟩
  have := hr ⟨saved.value + 1, saved.valuation⟩ rest
  rw [h] at this
  injection this with this; injection this with this
  have : saved.value + 1 = saved.value := congrArg Price.value this
  omega

theorem natText (n : Nat) : (toString n).toList = Nat.toDigits 10 n := by simp [toString, Nat.repr]

theorem intText (z : Int) : (toString z).toList = if z < 0 then '-' :: Nat.toDigits 10 z.natAbs else Nat.toDigits 10 z.natAbs := by
  cases z with
  | ofNat n => rw [if_neg (by simp)]; simp [toString, Int.repr, Nat.repr]
  | negSucc n => rw [if_pos (by omega)]; simp [toString, Int.repr, Nat.repr]

theorem digits_inj {m n : Nat} (h : Nat.toDigits 10 m = Nat.toDigits 10 n) : m = n := by
  rw [← Nat.ofDigitChars_ten_toDigits (n := m), h, Nat.ofDigitChars_ten_toDigits]

theorem digits_isDigit (n : Nat) : ∀ c ∈ Nat.toDigits 10 n, c.isDigit :=
  fun _ h => Nat.isDigit_of_mem_toDigits (by decide) (by decide) h

/-- **C66, prices (partial).** What is written for a price, whose currency has a code of three characters, is one text, and it is not shared with any other price: so it would suffice to give the price back. -/
theorem C66_price_saved_partial (p q : Price) (hp : p.valuation.code.length = 3) (hq : q.valuation.code.length = 3) : (price.save p).length = 1 ∧ (price.save p = price.save q ↔ p = q) := by
  refine ⟨rfl, fun h => ?_, fun h => by rw [h]⟩
  have h : p.text = q.text := by simpa [price] using h
  unfold Price.text at h
  simp only [List.append_assoc] at h
  obtain ⟨h1, h2⟩ := List.append_inj h (by rw [hp, hq])
  simp only [List.cons_append, List.nil_append, List.cons.injEq, true_and] at h2
  rw [natText, natText, intText, intText] at h2
  have key : ∀ a b c d : Nat, Nat.toDigits 10 a ++ '/' :: Nat.toDigits 10 c = Nat.toDigits 10 b ++ '/' :: Nat.toDigits 10 d → a = b ∧ c = d := by
    intro a b c d h
    obtain ⟨e1, e2⟩ := Identity.split_unique _ _ _ _ (digits_isDigit a) (digits_isDigit b) (by simp) (by simp) h
    exact ⟨digits_inj e1, digits_inj (List.cons.inj e2).2⟩
  have head : ∀ (m : Nat) (t r : List Char), Nat.toDigits 10 m ++ t = '-' :: r → False := by
    intro m t r h
    cases hd : Nat.toDigits 10 m with
    | nil => exact Nat.toDigits_ne_nil hd
    | cons c cs =>
      rw [hd] at h
      have hc := digits_isDigit m c (by rw [hd]; simp)
      rw [(List.cons.inj h).1] at hc
      revert hc; decide
  have e : p.value = q.value ∧ p.valuation.denominator = q.valuation.denominator := by
    split at h2 <;> split at h2
    · have := key _ _ _ _ (List.cons.inj h2).2
      omega
    · exact absurd h2.symm (fun h => head _ _ _ h)
    · exact absurd h2 (fun h => head _ _ _ h)
    · have := key _ _ _ _ h2
      omega
  obtain ⟨v, c⟩ := p
  obtain ⟨w, d⟩ := q
  obtain ⟨c1, c2⟩ := c
  obtain ⟨d1, d2⟩ := d
  simp only at e h1
  rw [h1, e.1, e.2]

/-- The condition can be met: a debt of one dollar and 23 cents. -/
example : (⟨-123, ⟨['U', 'S', 'D'], 100⟩⟩ : Price).valuation.code.length = 3 ∧ (⟨-123, ⟨['U', 'S', 'D'], 100⟩⟩ : Price).text = "USD -123/100".toList := by decide

/-- **C66, quotes, negation.** Loading a quote takes over the lot but keeps the old price, and leaves the text of the saved price in the archive; so that the next number cannot be loaded. -/
theorem C66_counterexample_quote (saved target : Quote) (next : Nat) :
    quote.load target (quote.save saved ++ natCodec.save next) = .ok (⟨saved.lot, target.price⟩, price.save saved.price ++ natCodec.save next) ∧
    natCodec.load 0 (price.save saved.price ++ natCodec.save next) = .throws ∧ ¬Spec.RoundTrips quote saved := by
  have h : ∀ (t : Quote) rest, quote.load t (quote.save saved ++ rest) = .ok (⟨saved.lot, t.price⟩, price.save saved.price ++ rest) := by
    intro t rest
    simp [quote, readNat, readInt]
  refine ⟨h _ _, rfl, fun hr => ?_⟩
  have := hr saved []
  rw [h] at this
  injection this with this; injection this with _ this
  have := congrArg List.length this
  simp [price] at this

/-- **C66, producers, negation.** A producer that is loaded keeps the outputs that it had, whatever was saved: loading a producer with outputs into a new one gives none. -/
theorem C66_counterexample_producer (readPointer : List Item → Outcome (List Item)) (target : List (List Char)) (a : List Item) (after : List (List Char)) (rest : List Item)
    (h : loadProducer readPointer target a = .ok (after, rest)) : after = target := by
  unfold loadProducer at h
  obtain ⟨⟨size, b⟩, _, h⟩ := (Outcome.bind_eq_ok ..).1 h
  obtain ⟨b', _, h⟩ := (Outcome.bind_eq_ok ..).1 h
  injection h with h; injection h with h
  exact h.symm

example : loadProducer (fun a => readText a >>= fun (_, a) => .ok a) [] (saveProducer [['x'], ['y']]) = .ok ([], []) := by decide

/-! ## C82: messages -/

/-- **C82, headers by themselves.** A header is given back. -/
theorem C82_header (h : Header) : Spec.RoundTrips header h := by
  intro t rest
  have hn : ∀ (n : Nat) (r : List Item), readNat (Item.int n :: r) = .ok (n, r) := fun n r => nat_roundTrips n 0 r
  have hv : ∀ (l : List Nat) (r : List Item), (vector natCodec 0).load [] ((vector natCodec 0).save l ++ r) = .ok (l, r) := fun l r => (C66_entity l 0 0).1 [] r
  simp only [header, List.append_assoc, List.cons_append, List.nil_append, hn, hv, Outcome.bind_ok]

/-- **C82 (partial).** The contents of a message are given back, if they would be by themselves. Missing: the sender, the recipient and the times; see the counterexample. -/
theorem C82_contents_partial {β : Type} (c : Codec β) (m target : Header × β) (rest : List Item) (h : Spec.RoundTrips c m.2) :
    ∃ after, (message c).load target ((message c).save m ++ rest) = .ok (after, rest) ∧ after.2 = m.2 := by
  refine ⟨(target.1, m.2), ?_, rfl⟩
  simp only [message]
  rw [h]
  rfl

/-- **C82, negation.** For every class of messages: a message that is loaded has the sender, recipient and times of the object that it is loaded into, not those of the message that was saved, and the archive depends only on
the contents. -/
theorem C82_counterexample_header {β : Type} (c : Codec β) (m : Header × β) (h' : Header) (target after : Header × β) (a rest : List Item)
    (h : (message c).load target a = .ok (after, rest)) : after.1 = target.1 ∧ (message c).save m = (message c).save (h', m.2) := by
  refine ⟨?_, rfl⟩
  obtain ⟨⟨x, b⟩, _, h⟩ := (Outcome.bind_eq_ok ..).1 h
  injection h with h; injection h with h
  rw [← h]

/-- A message from 1-2 to 1-3 arrives in a new object as one from nobody to nobody. -/
example : (message natCodec).load (⟨5, [], [], 0, 0⟩, 0) ((message natCodec).save (⟨5, [1, 2], [1, 3], 10, 11⟩, 42)) = .ok ((⟨5, [], [], 0, 0⟩, 42), []) := by decide

/-! ## C83: parametrizations -/

/-- **C83 (partial).** A parametrization has the sample, start, end and verbosity that it was made with. For the number of threads this is so only if it equals the verbosity; see the counterexample. -/
theorem C83_parameters_partial (sample start stop verbosity threads : Nat) :
    let p := Parametrization.make sample start stop verbosity threads
    p.get "sample" = .ok sample ∧ p.get "start" = .ok start ∧ p.get "end" = .ok stop ∧ p.get "verbosity" = .ok verbosity ∧ (p.get "threads" = .ok threads ↔ threads = verbosity) := by
  refine ⟨rfl, rfl, rfl, rfl, ?_⟩
  have : (Parametrization.make sample start stop verbosity threads).get "threads" = .ok verbosity := rfl
  rw [this]
  constructor
  · intro h; injection h with h; exact h.symm
  · rintro rfl; rfl

/-- **C83, other names.** A parameter that was not given throws. -/
theorem C83_missing (sample start stop verbosity threads : Nat) (name : String) (h : name ∉ ["sample", "start", "end", "verbosity", "threads"]) :
    (Parametrization.make sample start stop verbosity threads).get name = .throws := by
  have : ∀ s : String, s ∈ ["sample", "start", "end", "verbosity", "threads"] → (s == name) = false := by
    intro s hs
    rw [beq_eq_false_iff_ne]
    rintro rfl
    exact h hs
  simp [Parametrization.get, Parametrization.make, List.find?, this]

/-- **C83, negation.** The number of threads is not used: with one unit of verbosity there is one thread, whatever was asked for. -/
theorem C83_counterexample_threads (sample start stop threads : Nat) : (Parametrization.make sample start stop 1 threads).get "threads" = .ok 1 := rfl

example : (Parametrization.make 0 0 100 1 8).get "threads" = .ok 1 ∧ (Parametrization.make 0 0 100 1 8).get "end" = .ok 100 := ⟨rfl, rfl⟩

end Esl.Archive
