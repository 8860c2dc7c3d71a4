import Verif.Model.Printing
import Verif.Lemmas.Identity
import Verif.Props.Identity
import Verif.Lemmas.Double
import Verif.Props.QuantityNumber
import Verif.Model.Names
/-!
# Printed prices, quotes and reports (C142)
-/
namespace Esl.Printing
open Double Price

/-! ## Specification -/

/-- An amount of `v` minor units, `10^k` of which make one unit, as a decimal number: sign, units, and `k` digits behind the point if `k` is not zero. -/
def Spec.decimal (v : Int) (k : Nat) : List Char :=
  (if v < 0 then ['-'] else []) ++ Nat.toDigits 10 (v.natAbs / 10 ^ k) ++
    (if k = 0 then [] else '.' :: Identity.renderDigit k (v.natAbs % 10 ^ k))

/-- The currency was accepted by its constructor and has `10^k` minor units. All currencies of `currencies.hpp` have 1, 100 or 1000. -/
def Spec.Decimal (c : Currency) (k : Nat) : Prop :=
  Currency.make c.c0 c.c1 c.c2 c.denominator = .ok c ∧ c.denominator = 10 ^ k ∧ k ≤ 15

/-- A price that a `double` can tell from its neighbours, in a decimal currency. -/
def Spec.Plain (p : P) : Prop := |p.value| < 2 ^ 52 ∧ ∃ k, Spec.Decimal p.valuation k

/-! ## Lemmas -/

theorem digitsOf_decimal {c : Currency} {k : Nat} (h : Spec.Decimal c k) : digitsOf c = k := by
  unfold digitsOf
  rw [h.2.1]
  exact Nat.clog_pow 10 k (by decide)

theorem nearestEven_close (n d m : Nat) (hd : 0 < d) (h : |(n : Rat) / d - m| < 1 / 2) : nearestEven n d = m := by
  have h1 := nearestEven_half n d hd
  have h2 : |((nearestEven n d : Int) - (m : Int) : Int)| < 1 := by
    have : |(((nearestEven n d : Int) - (m : Int) : Int) : Rat)| < 1 := by
      push_cast
      calc |(nearestEven n d : Rat) - m| = |((nearestEven n d : Rat) - (n : Rat) / d) + ((n : Rat) / d - m)| := by ring_nf
        _ ≤ |(nearestEven n d : Rat) - (n : Rat) / d| + |(n : Rat) / d - m| := abs_add_le _ _
        _ < 1 := by linarith
    exact_mod_cast this
  have h3 := Int.abs_lt_one_iff.1 h2
  omega

theorem natAbs_div (q : Rat) : ((q.num.natAbs : Nat) : Rat) / q.den = |q| := by
  conv_rhs => rw [← Rat.num_div_den q]
  rw [abs_div, Nat.cast_natAbs, Int.cast_abs, Nat.abs_cast]

/-- A number close to a decimal with `k` digits is written as that decimal. -/
theorem fixedText_close (k : Nat) (q : Rat) (v : Int) (hs : q < 0 ↔ v < 0)
    (h : |q * 10 ^ k - v| < 1 / 2) : fixedText k q = Spec.decimal v k := by
  have hn : nearestEven (q.num.natAbs * 10 ^ k) q.den = v.natAbs := by
    apply nearestEven_close _ _ _ q.den_pos
    have e1 : (((q.num.natAbs * 10 ^ k : Nat) : Rat) / q.den) = |q * 10 ^ k| := by
      rw [abs_mul, abs_of_pos (by positivity : (0 : Rat) < 10 ^ k), ← natAbs_div q]
      push_cast
      ring
    have e2 : ((v.natAbs : Nat) : Rat) = |(v : Rat)| := by
      rw [Nat.cast_natAbs, Int.cast_abs]
    rw [e1, e2]
    exact lt_of_le_of_lt (abs_abs_sub_abs_le _ _) h
  unfold fixedText Spec.decimal
  simp only [hn]
  by_cases hv : v < 0
  · simp [hv, hs.2 hv]
  · simp [hv, mt hs.1 hv]

theorem toDouble_close {p : P} {k : Nat} (hv : |p.value| < 2 ^ 52) (hk : Spec.Decimal p.valuation k) :
    (Arith.toDouble binary64 p < 0 ↔ p.value < 0) ∧ |Arith.toDouble binary64 p * 10 ^ k - p.value| < 1 / 2 := by
  have h1 : binary64 (p.value : Rat) = p.value := binary64_int p.value (by omega)
  have hten : (10 : Nat) ^ k ≤ 10 ^ 15 := Nat.pow_le_pow_right (by decide) hk.2.2
  have h2 : binary64 ((p.valuation.denominator : Nat) : Rat) = (10 : Rat) ^ k := by
    have := binary64_int ((10 ^ k : Nat) : Int) (by
      rw [abs_of_nonneg (by positivity)]
      have : (10 : Int) ^ k ≤ 10 ^ 15 := by exact_mod_cast hten
      push_cast
      omega)
    rw [hk.2.1]
    simpa using this
  have hp : (0 : Rat) < 10 ^ k := by positivity
  have hd : Arith.toDouble binary64 p = binary64 ((p.value : Rat) / 10 ^ k) := by
    unfold Arith.toDouble
    rw [h1, h2]
  have he := binary64_err ((p.value : Rat) / 10 ^ k)
  rw [hd]
  constructor
  · constructor
    · intro h
      by_contra hc
      have h0 : (0 : Rat) ≤ (p.value : Rat) / 10 ^ k := div_nonneg (by exact_mod_cast (not_lt.1 hc)) hp.le
      exact absurd (binary64_nonneg _ h0) (not_le.2 h)
    · intro h
      have h0 : (p.value : Rat) / 10 ^ k < 0 := div_neg_of_neg_of_pos (by exact_mod_cast h) hp
      rw [abs_of_neg h0] at he
      have := abs_le.1 he
      have : binary64 ((p.value : Rat) / 10 ^ k) ≤ (p.value : Rat) / 10 ^ k * (1 - 1 / 2 ^ 53) := by linarith [this.2]
      exact lt_of_le_of_lt this (mul_neg_of_neg_of_pos h0 (by norm_num))
  · have e : binary64 ((p.value : Rat) / 10 ^ k) * 10 ^ k - p.value
        = (binary64 ((p.value : Rat) / 10 ^ k) - (p.value : Rat) / 10 ^ k) * 10 ^ k := by
      rw [sub_mul, div_mul_cancel₀ _ hp.ne']
    rw [e, abs_mul, abs_of_pos hp]
    have hb : |((p.value : Rat))| < 2 ^ 52 := by exact_mod_cast hv
    calc |binary64 ((p.value : Rat) / 10 ^ k) - (p.value : Rat) / 10 ^ k| * 10 ^ k
        ≤ |(p.value : Rat) / 10 ^ k| / 2 ^ 53 * 10 ^ k := mul_le_mul_of_nonneg_right he hp.le
      _ = |(p.value : Rat)| / 2 ^ 53 := by
          rw [abs_div, abs_of_pos hp]
          field_simp
      _ < 1 / 2 := by
          rw [div_lt_iff₀ (by norm_num)]
          linarith

/-! ## The text of a price -/

/-- **C142, text (partial).** A price is written as its currency and, in parentheses, its exact amount in decimal notation with as many digits as the currency has. Missing: prices beyond 2^52 minor units, and currencies with another number of minor units. -/
theorem C142_price_partial (s : Stream) (hw : s.width = 0) (p : P) (k : Nat) (hv : |p.value| < 2 ^ 52) (hk : Spec.Decimal p.valuation k) :
    (s.price p).text = s.text ++ code p.valuation ++ ['('] ++ Spec.decimal p.value k ++ [')'] ∧
    (s.price p).fixed = s.fixed ∧ (s.price p).fill = s.fill ∧ (s.price p).width = 0 := by
  have h := toDouble_close hv hk
  simp [Stream.price, Stream.currency, Stream.write, Stream.put, Stream.double, hw, digitsOf_decimal hk, fixedText_close k _ _ h.1 h.2]

/-- US dollars. -/
def usd : Currency := ⟨85, 83, 68, 100⟩

example : Spec.Decimal usd 2 ∧ Spec.Plain ⟨-123456, usd⟩ ∧ String.ofList (Stream.fresh.price ⟨-123456, usd⟩).text = "USD(-1234.56)" := by
  have h : Spec.Decimal usd 2 := ⟨by decide, by decide, by decide⟩
  exact ⟨h, ⟨by norm_num, 2, h⟩, by decide +kernel⟩

example : Spec.Decimal ⟨74, 80, 89, 1⟩ 0 ∧ String.ofList (Stream.fresh.price ⟨7, ⟨74, 80, 89, 1⟩⟩).text = "JPY(7)" :=
  ⟨⟨by decide, by decide, by decide⟩, by decide +kernel⟩

theorem toNat_small (x : Nat) (hx : x ≤ 90) : (Char.ofNat x).toNat = x := by
  have h : ∀ x : Fin 91, (Char.ofNat x).toNat = x := by decide
  exact h ⟨x, by omega⟩

theorem code_inj {a b : Currency} {k l : Nat} (ha : Spec.Decimal a k) (hb : Spec.Decimal b l) (h : code a = code b) : a.c0 = b.c0 ∧ a.c1 = b.c1 ∧ a.c2 = b.c2 := by
  have bound : ∀ {c : Currency} {k : Nat}, Spec.Decimal c k → c.c0 ≤ 90 ∧ c.c1 ≤ 90 ∧ c.c2 ≤ 90 := by
    intro c k hc
    have := hc.1
    unfold Currency.make at this
    split_ifs at this <;> omega
  have hc : ∀ x y : Nat, x ≤ 90 → y ≤ 90 → Char.ofNat x = Char.ofNat y → x = y := by
    intro x y hx hy e
    have h1 : (Char.ofNat x).toNat = x := toNat_small x hx
    have h2 : (Char.ofNat y).toNat = y := toNat_small y hy
    rw [← h1, ← h2, e]
  have h1 := bound ha
  have h2 := bound hb
  simp only [code, List.cons.injEq, and_true] at h
  exact ⟨hc _ _ h1.1 h2.1 h.1, hc _ _ h1.2.1 h2.2.1 h.2.1, hc _ _ h1.2.2 h2.2.2 h.2.2⟩

theorem toDigits_isDigit (n : Nat) : ∀ c ∈ Nat.toDigits 10 n, c.isDigit :=
  fun _ h => Nat.isDigit_of_mem_toDigits (by decide) (by decide) h

theorem toDigits_inj {m n : Nat} (h : Nat.toDigits 10 m = Nat.toDigits 10 n) : m = n := by
  rw [← Nat.ofDigitChars_ten_toDigits (n := m), h, Nat.ofDigitChars_ten_toDigits]

/-- The first part of a text up to a character that it does not contain. -/
theorem split_at (x : Char) : ∀ {a b r s : List Char}, x ∉ a → x ∉ b → a ++ x :: r = b ++ x :: s → a = b ∧ r = s
  | [], [], r, s, _, _, h => ⟨rfl, by simpa using h⟩
  | [], c :: b, r, s, _, hb, h => by
    simp only [List.nil_append, List.cons_append, List.cons.injEq] at h
    exact absurd (h.1 ▸ List.mem_cons_self) hb
  | c :: a, [], r, s, ha, _, h => by
    simp only [List.nil_append, List.cons_append, List.cons.injEq] at h
    exact absurd (h.1 ▸ List.mem_cons_self) ha
  | c :: a, d :: b, r, s, ha, hb, h => by
    simp only [List.cons_append, List.cons.injEq] at h
    have := split_at x (a := a) (b := b) (fun e => ha (List.mem_cons_of_mem _ e)) (fun e => hb (List.mem_cons_of_mem _ e)) h.2
    exact ⟨by rw [h.1, this.1], this.2⟩

theorem digit_ne_minus {c : Char} (h : c.isDigit) : c ≠ '-' := by
  rintro rfl
  exact absurd h (by decide)

theorem renderDigit_length (k n : Nat) (h : n < 10 ^ k) (hk : k ≠ 0) : (Identity.renderDigit k n).length = k := by
  have h1 : (Nat.toDigits 10 n).length ≤ k := (Nat.length_toDigits_le_iff (by decide) (Nat.pos_of_ne_zero hk)).2 h
  unfold Identity.renderDigit
  simp only [List.length_append, List.length_replicate]
  omega

theorem decimal_inj {v w : Int} {k l : Nat} (h : Spec.decimal v k ++ [')'] = Spec.decimal w l ++ [')']) : v = w ∧ k = l := by
  -- the digits without the sign
  have key : ∀ m n : Nat, Nat.toDigits 10 (m / 10 ^ k) ++ ((if k = 0 then [] else '.' :: Identity.renderDigit k (m % 10 ^ k)) ++ [')'])
      = Nat.toDigits 10 (n / 10 ^ l) ++ ((if l = 0 then [] else '.' :: Identity.renderDigit l (n % 10 ^ l)) ++ [')']) → m = n ∧ k = l := by
    intro m n h
    have h1 := Identity.split_unique _ _ _ _ (toDigits_isDigit _) (toDigits_isDigit _) (by
      split <;> simp) (by split <;> simp) h
    have hq := toDigits_inj h1.1
    have h2 := h1.2
    by_cases hk : k = 0
    · by_cases hl : l = 0
      · subst hk; subst hl
        simp at hq
        exact ⟨hq, rfl⟩
      · simp [hk, hl] at h2
    · by_cases hl : l = 0
      · simp [hk, hl] at h2
      · simp only [hk, hl, if_false, List.cons_append, List.cons.injEq, true_and] at h2
        have h3 : Identity.renderDigit k (m % 10 ^ k) = Identity.renderDigit l (n % 10 ^ l) := List.append_cancel_right h2
        have hkl : k = l := by
          rw [← renderDigit_length k _ (Nat.mod_lt m (by positivity)) hk, h3, renderDigit_length l _ (Nat.mod_lt n (by positivity)) hl]
        subst hkl
        have h4 : m % 10 ^ k = n % 10 ^ k := by
          rw [← Identity.renderDigit_value k (m % 10 ^ k), h3, Identity.renderDigit_value]
        refine ⟨?_, rfl⟩
        rw [← Nat.div_add_mod m (10 ^ k), ← Nat.div_add_mod n (10 ^ k), hq, h4]
  have head : ∀ (m j : Nat) (t r : List Char), Nat.toDigits 10 m ++ t = '-' :: r → False := by
    intro m j t r h
    cases hd : Nat.toDigits 10 m with
    | nil => exact absurd hd Nat.toDigits_ne_nil
    | cons c cs =>
      rw [hd, List.cons_append, List.cons.injEq] at h
      exact digit_ne_minus (toDigits_isDigit m c (by simp [hd])) h.1
  unfold Spec.decimal at h
  simp only [List.append_assoc] at h
  by_cases hv : v < 0 <;> by_cases hw : w < 0
  · simp only [hv, hw, if_true, List.cons_append, List.nil_append, List.cons.injEq, true_and] at h
    have := key _ _ h
    exact ⟨by omega, this.2⟩
  · simp only [hv, hw, if_true, if_false, List.cons_append, List.nil_append] at h
    exact (head _ 0 _ _ h.symm).elim
  · simp only [hv, hw, if_true, if_false, List.cons_append, List.nil_append] at h
    exact (head _ 0 _ _ h).elim
  · simp only [hv, hw, if_false, List.nil_append] at h
    have := key _ _ h
    exact ⟨by omega, this.2⟩

theorem priceText {p : P} (h : Spec.Plain p) (s : Stream) (hw : s.width = 0) : ∃ k, Spec.Decimal p.valuation k ∧
    (s.price p).text = s.text ++ (code p.valuation ++ '(' :: (Spec.decimal p.value k ++ [')'])) := by
  obtain ⟨hv, k, hk⟩ := h
  exact ⟨k, hk, by simp [(C142_price_partial s hw p k hv hk).1]⟩

theorem price_inj {p q : P} {k l : Nat} (hk : Spec.Decimal p.valuation k) (hl : Spec.Decimal q.valuation l)
    (h : code p.valuation ++ '(' :: (Spec.decimal p.value k ++ [')']) = code q.valuation ++ '(' :: (Spec.decimal q.value l ++ [')'])) : p = q := by
  have h1 : code p.valuation = code q.valuation ∧ '(' :: (Spec.decimal p.value k ++ [')']) = '(' :: (Spec.decimal q.value l ++ [')']) :=
    List.append_inj h (by simp [code])
  have h2 := code_inj hk hl h1.1
  have h3 := decimal_inj (List.cons.inj h1.2).2
  obtain ⟨pv, ⟨a0, a1, a2, ad⟩⟩ := p
  obtain ⟨qv, ⟨b0, b1, b2, bd⟩⟩ := q
  obtain ⟨e0, e1, e2⟩ := h2
  obtain ⟨ev, ek⟩ := h3
  have hda := hk.2.1
  have hdb := hl.2.1
  simp only at e0 e1 e2 ev hda hdb
  subst ek
  simp [e0, e1, e2, ev, hda, hdb]

/-- **C142, prices (partial).** Two prices with the same text are the same price: the same amount, currency and number of minor units. Missing: see `C142_price_partial`. -/
theorem C142_identifies_partial (p q : P) (hp : Spec.Plain p) (hq : Spec.Plain q)
    (h : (Stream.fresh.price p).text = (Stream.fresh.price q).text) : p = q := by
  obtain ⟨k, hk, ek⟩ := priceText hp Stream.fresh rfl
  obtain ⟨l, hl, el⟩ := priceText hq Stream.fresh rfl
  rw [ek, el] at h
  exact price_inj hk hl (by simpa [Stream.fresh] using h)

theorem quoteText_eq {q : Quote} (h : Spec.Plain q.price) (s : Stream) (hw : s.width = 0) : ∃ k, Spec.Decimal q.price.valuation k ∧
    (s.quote q).text = s.text ++ (Nat.toDigits 10 q.lot ++ '@' :: (code q.price.valuation ++ '(' :: (Spec.decimal q.price.value k ++ [')']))) := by
  obtain ⟨k, hk, ek⟩ := priceText h ((s.put (Nat.toDigits 10 q.lot)).put ['@']) rfl
  exact ⟨k, hk, by rw [Stream.quote, ek]; simp [Stream.put, hw]⟩

theorem at_not_digit (n : Nat) : '@' ∉ Nat.toDigits 10 n := fun h => absurd (toDigits_isDigit n _ h) (by decide)

theorem quote_inj {q r : Quote} {k l : Nat} (hk : Spec.Decimal q.price.valuation k) (hl : Spec.Decimal r.price.valuation l)
    (h : Nat.toDigits 10 q.lot ++ '@' :: (code q.price.valuation ++ '(' :: (Spec.decimal q.price.value k ++ [')']))
      = Nat.toDigits 10 r.lot ++ '@' :: (code r.price.valuation ++ '(' :: (Spec.decimal r.price.value l ++ [')']))) : q = r := by
  have h1 := split_at '@' (at_not_digit _) (at_not_digit _) h
  have h2 := price_inj hk hl h1.2
  have h3 := toDigits_inj h1.1
  obtain ⟨a, b⟩ := q
  obtain ⟨c, d⟩ := r
  simp only at h2 h3
  rw [h2, h3]

/-- **C142, quotes (partial).** Two quotes with the same text have the same lot size and the same price. -/
theorem C142_quote_partial (q r : Quote) (hq : Spec.Plain q.price) (hr : Spec.Plain r.price) (h : quoteText q = quoteText r) : q = r := by
  obtain ⟨k, hk, ek⟩ := quoteText_eq hq Stream.fresh rfl
  obtain ⟨l, hl, el⟩ := quoteText_eq hr Stream.fresh rfl
  unfold quoteText at h
  rw [ek, el] at h
  exact quote_inj hk hl (by simpa [Stream.fresh] using h)

example : Spec.Plain (⟨50, usd⟩ : P) ∧ String.ofList (quoteText ⟨100, ⟨50, usd⟩⟩) = "100@USD(0.50)" :=
  ⟨⟨by norm_num, 2, by decide, by decide, by decide⟩, by decide +kernel⟩

/-- **C142, format.** `format` tells currencies, their minor units and quantities apart, whatever their size. -/
theorem C142_format (a b : Currency) (m n : Nat) (ha : Currency.make a.c0 a.c1 a.c2 a.denominator = .ok a) (hb : Currency.make b.c0 b.c1 b.c2 b.denominator = .ok b)
    (h : format a m = format b n) : a = b ∧ m = n := by
  have h1 : code a = code b ∧ _ := List.append_inj (by simpa [format] using h) (by simp [code])
  have h2 := code_inj (a := ⟨a.c0, a.c1, a.c2, 1⟩) (b := ⟨b.c0, b.c1, b.c2, 1⟩) (k := 0) (l := 0)
    ⟨by unfold Currency.make at ha ⊢; split_ifs at ha ⊢ <;> simp_all, rfl, by omega⟩
    ⟨by unfold Currency.make at hb ⊢; split_ifs at hb ⊢ <;> simp_all, rfl, by omega⟩ h1.1
  have h3 := split_at '/' (fun e => absurd (toDigits_isDigit m _ e) (by decide)) (fun e => absurd (toDigits_isDigit n _ e) (by decide)) (List.cons.inj h1.2).2
  have h4 := toDigits_inj h3.1
  have h5 := toDigits_inj h3.2
  obtain ⟨a0, a1, a2, ad⟩ := a
  obtain ⟨b0, b1, b2, bd⟩ := b
  simp only at h2 h5
  exact ⟨by rw [h2.1, h2.2.1, h2.2.2, h5], h4⟩

example : String.ofList (format usd 5) = "USD 5/100" := by decide

/-- **C142, currencies.** Every currency that the library defines is decimal, so the theorems above apply to its prices: the text of an amount below 2^52 minor units identifies it among the prices in all these currencies. -/
theorem C142_currencies (a b : List Nat × Nat) (ha : a ∈ Names.currencies) (hb : b ∈ Names.currencies) (v w : Int) (hv : |v| < 2 ^ 52) (hw : |w| < 2 ^ 52) :
    let ca : Currency := ⟨a.1[0]!, a.1[1]!, a.1[2]!, a.2⟩
    let cb : Currency := ⟨b.1[0]!, b.1[1]!, b.1[2]!, b.2⟩
    (Stream.fresh.price ⟨v, ca⟩).text = (Stream.fresh.price ⟨w, cb⟩).text → v = w ∧ a = b := by
  have hall : ∀ x ∈ Names.currencies, (Currency.make x.1[0]! x.1[1]! x.1[2]! x.2 = .ok ⟨x.1[0]!, x.1[1]!, x.1[2]!, x.2⟩ ∧ (x.2 = 10 ^ 0 ∨ x.2 = 10 ^ 2 ∨ x.2 = 10 ^ 3)) ∧ x.1.length = 3 := by decide +kernel
  have plain : ∀ x ∈ Names.currencies, ∀ v : Int, |v| < 2 ^ 52 → Spec.Plain ⟨v, ⟨x.1[0]!, x.1[1]!, x.1[2]!, x.2⟩⟩ := by
    intro x hx v hv
    obtain ⟨⟨h1, h2⟩, -⟩ := hall x hx
    refine ⟨hv, ?_⟩
    rcases h2 with h2 | h2 | h2
    · exact ⟨0, h1, h2, by omega⟩
    · exact ⟨2, h1, h2, by omega⟩
    · exact ⟨3, h1, h2, by omega⟩
  intro ca cb h
  have e := C142_identifies_partial _ _ (plain a ha v hv) (plain b hb w hw) h
  simp only [P.mk.injEq, Currency.mk.injEq] at e
  obtain ⟨e0, e1, e2, e3, e4⟩ := e
  refine ⟨e0, Prod.ext ?_ e4⟩
  have la := (hall a ha).2
  have lb := (hall b hb).2
  obtain ⟨la', da⟩ := a
  obtain ⟨lb', db⟩ := b
  match la', la, lb', lb with
  | [x, y, z], _, [x', y', z'], _ =>
    simp at e1 e2 e3
    simp [e1, e2, e3]

example : ([85, 83, 68], 100) ∈ Names.currencies ∧ ([74, 80, 89], 1) ∈ Names.currencies := by decide +kernel

/-! ## Where the text does not identify the price -/

/-- **C142, negation for large amounts.** For every odd amount between 2^53 and 2^54 minor units there is another amount with the same text, in every currency. -/
theorem C142_counterexample_large (c : Currency) (k : Nat) (h1 : 2 ^ 52 ≤ k) (h2 : k < 2 ^ 53) (s : Stream) :
    ∃ w : Int, w ≠ 2 * k + 1 ∧ InI64 w ∧ s.price ⟨w, c⟩ = s.price ⟨2 * k + 1, c⟩ := by
  obtain ⟨b, hb, hbk⟩ := QNum.toDouble_odd k h1 h2
  refine ⟨2 * b, by omega, by unfold InI64; omega, ?_⟩
  have e1 : binary64 (((2 * k + 1 : Nat) : Rat)) = ((2 * b : Nat) : Rat) := hb
  have e2 : binary64 (((2 * b : Nat) : Rat)) = ((2 * b : Nat) : Rat) := by
    rw [← e1, binary64_idem]
  have e3 : Arith.toDouble binary64 ⟨2 * b, c⟩ = Arith.toDouble binary64 ⟨2 * k + 1, c⟩ := by
    unfold Arith.toDouble
    have : binary64 (((2 * b : Int)) : Rat) = binary64 (((2 * k + 1 : Int)) : Rat) := by
      push_cast at e1 e2 ⊢
      rw [e1, e2]
    simp only [this]
  simp only [Stream.price, e3]

example : String.ofList (Stream.fresh.price ⟨2 ^ 53 + 1, usd⟩).text = "USD(90071992547409.92)" ∧ (2 ^ 53 + 1 : Int) = 9007199254740993 := by
  constructor
  · decide +kernel
  · norm_num

/-- **C142, negation for the stream.** Printing a price changes the precision of the stream: numbers printed afterwards have as many digits as the currency of that price, behind the point in fixed notation and in all in the default notation. -/
theorem C142_counterexample_precision (s : Stream) (p : P) (k : Nat) (hk : Spec.Decimal p.valuation k) (x : Rat) :
    (s.price p).precision = k ∧ ((s.price p).double x).text = (s.price p).text ++ if s.fixed then fixedText k x else generalText k x := by
  have h : (s.price p).precision = k := by
    simp [Stream.price, Stream.put, Stream.double, digitsOf_decimal hk]
  refine ⟨h, ?_⟩
  rw [Stream.double, h, Stream.put]
  simp [Stream.price, Stream.put]

/-- One third with four digits, before and after a price in dollars. -/
example :
    String.ofList ((((⟨[], true, 4, ' ', 0⟩ : Stream).double (1 / 3)).price ⟨5, usd⟩).double (1 / 3)).text = "0.3333USD(0.05)0.33" := by
  decide +kernel

/-- On a new stream: 1234.5 loses its last digits after a price in dollars. -/
example :
    String.ofList (((Stream.fresh.double (2469 / 2)).price ⟨5, usd⟩).double (2469 / 2)).text = "1234.5USD(0.05)1.2e+03" := by
  decide +kernel

/-- **C142, negation for columns.** With a width set, the padding goes between the currency and the amount. -/
theorem C142_counterexample_width (s : Stream) (p : P) (k w : Nat) (hw : s.width = w + 1) (hv : |p.value| < 2 ^ 52) (hk : Spec.Decimal p.valuation k) :
    (s.price p).text = s.text ++ code p.valuation ++ List.replicate w s.fill ++ ['('] ++ Spec.decimal p.value k ++ [')'] := by
  have h := toDouble_close hv hk
  simp [Stream.price, Stream.currency, Stream.write, Stream.put, Stream.double, hw, digitsOf_decimal hk, fixedText_close k _ _ h.1 h.2]

example : String.ofList ((⟨[], false, 6, ' ', 12⟩ : Stream).price ⟨5, usd⟩).text = "USD           (0.05)" := by decide +kernel

/-- **C142, negation for padding.** Printing an identity leaves the fill character zero: a number printed in a column afterwards is padded with zeros. -/
theorem C142_counterexample_fill (s : Stream) (i : List Nat) (hi : i ≠ []) (n w : Nat) :
    (({ s.identity i with width := w } : Stream).put (Nat.toDigits 10 n)).text
      = (s.identity i).text ++ List.replicate (w - (Nat.toDigits 10 n).length) '0' ++ Nat.toDigits 10 n := by
  cases i with
  | nil => exact absurd rfl hi
  | cons d ds => rfl

example : String.ofList (({ (Stream.fresh.identity [4, 2]) with width := 3 } : Stream).put (Nat.toDigits 10 7)).text = "\"4-2\"007" := by decide

/-! ## Execution reports -/

theorem render_no_space (w : Nat) (i : List Nat) : ' ' ∉ Identity.render w i := by
  have hd : ∀ d, ' ' ∉ Identity.renderDigit w d := fun d h => absurd (Identity.renderDigit_isDigit w d _ h) (by decide)
  have hr : ∀ ds : List Nat, ' ' ∉ Identity.renderRest w ds := by
    intro ds
    induction ds with
    | nil => simp [Identity.renderRest]
    | cons d ds ih =>
      simp only [Identity.renderRest, List.mem_cons, List.mem_append, not_or]
      exact ⟨by decide, hd d, ih⟩
  cases i with
  | nil => simp [Identity.render]
  | cons d ds =>
    simp only [Identity.render, List.mem_cons, List.mem_append, not_or]
    exact ⟨by decide, ⟨hd d, hr ds⟩, by decide, by simp⟩

theorem report_text {r : Report} {n : List Char} (hn : stateName r.state = some n) (hp : Spec.Plain r.limit.price) :
    ∃ k, Spec.Decimal r.limit.price.valuation k ∧ reportText r = .ok (n ++ ' ' :: (Identity.render 0 r.owner ++ ' ' ::
      (Nat.toDigits 10 r.limit.lot ++ '@' :: (code r.limit.price.valuation ++ '(' :: (Spec.decimal r.limit.price.value k ++ [')']))))) := by
  obtain ⟨k, hk, ek⟩ := quoteText_eq hp ((((Stream.fresh.put n).put [' ']).identity r.owner).put [' ']) rfl
  refine ⟨k, hk, ?_⟩
  simp only [reportText, Stream.report, hn, ek]
  cases ho : r.owner with
  | nil => simp [Stream.identity, Identity.render, Stream.put, Stream.fresh]
  | cons d ds => simp [Stream.identity, Stream.put, Stream.fresh]

theorem stateName_no_space {s : Nat} {n : List Char} (h : stateName s = some n) : ' ' ∉ n := by
  unfold stateName at h
  split at h <;> simp at h <;> subst h <;> decide

theorem stateName_inj {s t : Nat} {n : List Char} (h : stateName s = some n) (h' : stateName t = some n) : s = t := by
  unfold stateName at h h'
  split at h <;> split at h' <;> simp at h h' <;> subst h <;> simp_all

/-- **C142, reports (partial).** A report of one of the four states has a text, and two reports with the same text have the same state, owner and limit; other states are refused. Missing: the side, the quantity and the identifier are not in the text. -/
theorem C142_report_partial (a b : Report) (ha : Spec.Plain a.limit.price) (hb : Spec.Plain b.limit.price) :
    (a.state ≤ 3 ↔ ∃ t, reportText a = .ok t) ∧ (¬ a.state ≤ 3 → reportText a = .throws) ∧
    ∀ t, reportText a = .ok t → reportText b = .ok t → a.state = b.state ∧ a.owner = b.owner ∧ a.limit = b.limit := by
  have hs : a.state ≤ 3 ↔ ∃ n, stateName a.state = some n := by
    generalize a.state = n
    match n with
    | 0 | 1 | 2 | 3 => simp [stateName]
    | n + 4 => simp [stateName]
  have hnone : ¬ a.state ≤ 3 → reportText a = .throws := by
    intro h
    have : stateName a.state = none := by
      cases e : stateName a.state with
      | none => rfl
      | some n => exact absurd (hs.2 ⟨n, e⟩) h
    simp [reportText, Stream.report, this]
  refine ⟨⟨?_, ?_⟩, hnone, ?_⟩
  · intro h
    obtain ⟨n, hn⟩ := hs.1 h
    obtain ⟨k, -, e⟩ := report_text hn ha
    exact ⟨_, e⟩
  · rintro ⟨t, ht⟩
    by_contra hc
    rw [hnone hc] at ht
    cases ht
  · intro t h1 h2
    cases ea : stateName a.state with
    | none => simp [reportText, Stream.report, ea] at h1
    | some n =>
      cases eb : stateName b.state with
      | none => simp [reportText, Stream.report, eb] at h2
      | some m =>
        obtain ⟨k, hk, e1⟩ := report_text ea ha
        obtain ⟨l, hl, e2⟩ := report_text eb hb
        rw [h1] at e1
        rw [h2] at e2
        have e : n ++ ' ' :: _ = m ++ ' ' :: _ := (Outcome.ok.inj e1).symm.trans (Outcome.ok.inj e2)
        have s1 := split_at ' ' (stateName_no_space ea) (stateName_no_space eb) e
        have s2 := split_at ' ' (render_no_space 0 _) (render_no_space 0 _) s1.2
        refine ⟨stateName_inj ea (s1.1 ▸ eb), ?_, quote_inj hk hl s2.2⟩
        exact Identity.C04_render_injective 0 0 _ _ s2.1

/-- **C142, negation for reports.** The text of a report does not show which side, how much and which order it is about. -/
theorem C142_counterexample_report (r : Report) (sell : Bool) (quantity identifier : Nat) :
    reportText { r with sell := sell, quantity := quantity, identifier := identifier } = reportText r := rfl

example : String.ofList (match reportText ⟨2, true, 10, 7, ⟨1, ⟨12345, usd⟩⟩, [3, 1]⟩ with | .ok t => t | _ => []) = "match \"3-1\" 1@USD(123.45)" := by decide +kernel

/-- **C142, copies.** A copy of a report and a report after assignment are the same report. -/
theorem C142_copy (a b : Report) : b.copy = b ∧ a.assign b = b := ⟨rfl, rfl⟩

theorem quote_eq_same (a b : Quote) (hl : a.lot = b.lot) (h0 : 0 < a.lot) (ha : InI64 (a.price.value * a.lot)) (hb : InI64 (b.price.value * b.lot)) :
    Quote.eq a b = .ok (decide (a = b)) := by
  obtain ⟨la, va, a0, a1, a2, ad⟩ := a
  obtain ⟨lb, vb, b0, b1, b2, bd⟩ := b
  simp only at hl h0 ha hb
  subst hl
  have hm : va * (la : Int) = vb * (la : Int) ↔ va = vb := by
    constructor
    · intro h
      exact Int.eq_of_mul_eq_mul_right (by omega) h
    · intro h
      rw [h]
  simp only [Quote.eq, Quote.cmp, P.scaleWrap, P.scaleSigned, hb, wrapI64_of_in ha, P.eq, Currency.eq, ne_eq, not_true_eq_false, if_false, if_true]
  simp only [Outcome.bind_ok, Outcome.ok.injEq]
  rw [Bool.eq_iff_iff]
  simp only [Bool.and_eq_true, beq_iff_eq, decide_eq_true_eq, hm, Quote.mk.injEq, P.mk.injEq, Currency.mk.injEq, true_and]
  tauto

/-- **C142, equality (partial).** For reports whose limits have the same lot size and amounts that fit after multiplication with it, equality compares every part. Missing: limits with different lot sizes, for which comparing throws. -/
theorem C142_equality_partial (a b : Report) (hl : a.limit.lot = b.limit.lot) (h0 : 0 < a.limit.lot)
    (ha : InI64 (a.limit.price.value * a.limit.lot)) (hb : InI64 (b.limit.price.value * b.limit.lot)) :
    ∃ v, Report.eq a b = .ok v ∧ (v = true ↔ a = b) := by
  have hq := quote_eq_same a.limit b.limit hl h0 ha hb
  obtain ⟨s, se, q, i, l, o⟩ := a
  obtain ⟨s', se', q', i', l', o'⟩ := b
  simp only at hq
  unfold Report.eq
  simp only [hq]
  by_cases hc : s = s' ∧ q = q' ∧ i = i' ∧ se = se'
  · rw [if_pos hc]
    by_cases hll : l = l'
    · refine ⟨Identity.eq o o', by simp [hll], ?_⟩
      rw [Identity.eq_iff]
      simp [hc, hll]
    · exact ⟨false, by simp [hll], by simp [hll]⟩
  · rw [if_neg hc]
    refine ⟨false, rfl, ?_⟩
    simp only [Bool.false_eq_true, Report.mk.injEq, false_iff]
    tauto

/-- **C142, negation for equality.** Two reports that agree in state, side, quantity and order cannot be compared when the limits have different lot sizes: the comparison throws. -/
theorem C142_counterexample_equality (a b : Report) (h : a.state = b.state ∧ a.quantity = b.quantity ∧ a.identifier = b.identifier ∧ a.sell = b.sell)
    (hl : a.limit.lot ≠ b.limit.lot) : Report.eq a b = .throws := by
  unfold Report.eq
  rw [if_pos h, Quote.eq, if_pos hl]
  rfl

example : Report.eq ⟨2, true, 10, 7, ⟨1, ⟨12345, usd⟩⟩, [3, 1]⟩ ⟨2, true, 10, 7, ⟨1, ⟨12345, usd⟩⟩, [3, 2]⟩ = .ok false ∧
    Report.eq ⟨2, true, 10, 7, ⟨1, ⟨12345, usd⟩⟩, [3, 1]⟩ ⟨2, true, 10, 7, ⟨2, ⟨12345, usd⟩⟩, [3, 2]⟩ = .throws := by decide

/-- A report made without arguments says so: its state is `invalid`, and it is about buying nothing. -/
example : reportText (Report.default usd) = .ok "invalid  1@USD(0.00)".toList ∧ (Report.default usd).sell = false ∧ (Report.default usd).quantity = 0 := by decide +kernel

/-- **C142, negation for orders.** An order is printed as nothing at all. -/
theorem C142_counterexample_order (s : Stream) (o : Nat) : (s.order o).text = s.text := rfl

end Esl.Printing
