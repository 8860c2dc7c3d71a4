import Verif.Model.Price
/-! # C08, C09, C48: prices, quotes, currencies -/
namespace Esl.Price

theorem Currency.eq_iff (a b : Currency) : a.eq b = true ↔ a = b := by
  cases a; cases b; simp [Currency.eq, and_assoc]

theorem Currency.ne_iff (a b : Currency) : a.ne b = true ↔ a ≠ b := by
  rw [Ne, ← Currency.eq_iff]
  simp only [Currency.ne, Currency.eq, bne]
  cases (a.c0 == b.c0) <;> cases (a.c1 == b.c1) <;> cases (a.c2 == b.c2) <;>
    cases (a.denominator == b.denominator) <;> simp

theorem P.eq_iff (a b : P) : a.eq b = true ↔ a = b := by
  cases a; cases b; simp [P.eq, Currency.eq_iff]

theorem P.ne_iff (a b : P) : a.ne b = true ↔ a ≠ b := by
  obtain ⟨v, c⟩ := a
  obtain ⟨w, d⟩ := b
  simp only [P.ne, Bool.or_eq_true, bne_iff_ne, Currency.ne_iff, ne_eq, P.mk.injEq]
  constructor
  · rintro (h | h) ⟨h1, h2⟩
    · exact h h1
    · exact h h2
  · intro h
    by_cases h1 : v = w
    · exact Or.inr (fun h2 => h ⟨h1, h2⟩)
    · exact Or.inl h1

/-- **C08.** Within a currency every comparison operator answers, and answers like the comparison of
the values. -/
theorem C08_same_currency (a b : P) (h : a.valuation = b.valuation) :
    a.lt b = .ok (decide (a.value < b.value)) ∧
    a.le b = .ok (decide (a.value ≤ b.value)) ∧
    a.gt b = .ok (decide (a.value > b.value)) ∧
    a.ge b = .ok (decide (a.value ≥ b.value)) ∧
    a.eq b = decide (a.value = b.value) ∧
    a.ne b = decide (a.value ≠ b.value) := by
  obtain ⟨v, c⟩ := a
  obtain ⟨w, d⟩ := b
  simp only at h
  subst h
  have hne : c.ne c = false := by
    rw [Bool.eq_false_iff, Ne, Currency.ne_iff]; simp
  have heq : c.eq c = true := by rw [Currency.eq_iff]
  refine ⟨?_, ?_, ?_, ?_, ?_, ?_⟩
  · simp [P.lt, hne]
  · simp only [P.le, P.lt, hne, P.eq, heq, Bool.and_true, Outcome.bind_ok, Outcome.pure_eq,
      Outcome.ok.injEq, Bool.false_eq_true, if_false]
    rw [Bool.eq_iff_iff]; simp; omega
  · simp [P.gt, hne]
  · simp only [P.ge, P.gt, hne, P.eq, heq, Bool.and_true, Outcome.bind_ok, Outcome.pure_eq,
      Outcome.ok.injEq, Bool.false_eq_true, if_false]
    rw [Bool.eq_iff_iff]; simp; omega
  · simp [P.eq, heq]; by_cases h2 : v = w <;> simp [h2]
  · simp [P.ne, hne]; by_cases h2 : v = w <;> simp [h2]

/-- **C08.** Across currencies the ordering operators throw and the prices are not equal. -/
theorem C08_different_currency (a b : P) (h : a.valuation ≠ b.valuation) :
    a.lt b = .throws ∧ a.le b = .throws ∧ a.gt b = .throws ∧ a.ge b = .throws ∧
    a.eq b = false ∧ a.ne b = true := by
  have hne : a.valuation.ne b.valuation = true := (Currency.ne_iff _ _).2 h
  have hpe : a.eq b = false := by
    rw [Bool.eq_false_iff, Ne, P.eq_iff]; intro e; exact h (by rw [e])
  refine ⟨?_, ?_, ?_, ?_, hpe, ?_⟩
  · simp [P.lt, hne]
  · simp [P.le, P.lt, hne]
  · simp [P.gt, hne]
  · simp [P.ge, P.gt, hne]
  · simp [P.ne, hne]

def usd : Currency := ⟨85, 83, 68, 100⟩
def eur : Currency := ⟨69, 85, 82, 100⟩
example : (P.mk 5 usd).lt ⟨7, usd⟩ = .ok true ∧ (P.mk 5 usd).lt ⟨7, eur⟩ = .throws := by decide

theorem mul_lt_iff (l : Int) (hl : 0 < l) (x y : Int) : x * l < y * l ↔ x < y :=
  ⟨fun h => Int.lt_of_mul_lt_mul_right h (Int.le_of_lt hl), fun h => Int.mul_lt_mul_of_pos_right h hl⟩

theorem mul_eq_iff (l : Int) (hl : 0 < l) (x y : Int) : x * l = y * l ↔ x = y :=
  ⟨fun h => Int.eq_of_mul_eq_mul_right (by omega) h, fun h => by rw [h]⟩

/-- **C09 (partial).** For quotes with equal positive lots, in the same currency, whose values times
the lot fit into 64 bits, all operators give the order of the prices. Missing: large products,
where the code wraps (see `C09_counterexample_wrap`), and the refusal of different lots by `>=`
(see `C09_counterexample_ge_lots`). -/
theorem C09_equal_lots_partial (a b : Quote) (hl : a.lot = b.lot) (hp : 0 < a.lot)
    (hc : a.price.valuation = b.price.valuation)
    (ha : InI64 (a.price.value * a.lot)) (hb : InI64 (b.price.value * b.lot)) :
    a.lt b = .ok (decide (a.price.value < b.price.value)) ∧
    a.le b = .ok (decide (a.price.value ≤ b.price.value)) ∧
    a.gt b = .ok (decide (a.price.value > b.price.value)) ∧
    a.ge b = .ok (decide (a.price.value ≥ b.price.value)) ∧
    a.eq b = .ok (decide (a.price.value = b.price.value)) ∧
    a.ne b = .ok (decide (a.price.value ≠ b.price.value)) := by
  obtain ⟨n, v, c⟩ := a
  obtain ⟨m, w, d⟩ := b
  simp only at hl hp hc ha hb
  subst hl hc
  have hn : (0 : Int) < n := by omega
  obtain ⟨h1, h2, h3, h4, h5, h6⟩ := C08_same_currency ⟨v * n, c⟩ ⟨w * n, c⟩ rfl
  have elt := mul_lt_iff n hn v w
  have egt := mul_lt_iff n hn w v
  have eeq := mul_eq_iff n hn v w
  simp only at h1 h2 h3 h4 h5 h6
  simp only [Quote.lt, Quote.le, Quote.gt, Quote.ge, Quote.eq, Quote.ne, Quote.cmp, P.scaleSigned,
    P.scaleWrap, if_pos hb, wrapI64_of_in ha, ne_eq, not_true_eq_false, if_false, Outcome.bind_ok,
    h1, h2, h3, h4, h5, h6, Outcome.ok.injEq, decide_eq_decide, elt, egt, eeq, gt_iff_lt, ge_iff_le,
    ← Int.not_lt, and_self]

/-- **C09 (partial).** Quotes with different lots are refused by `<`, `>`, `<=`, `==`, `!=`. -/
theorem C09_different_lots_partial (a b : Quote) (h : a.lot ≠ b.lot) :
    a.lt b = .throws ∧ a.le b = .throws ∧ a.gt b = .throws ∧ a.eq b = .throws ∧ a.ne b = .throws := by
  simp [Quote.lt, Quote.le, Quote.gt, Quote.eq, Quote.ne, h]

/-- **C09 (negation).** `>=` answers although the lots differ. -/
theorem C09_counterexample_ge_lots :
    Quote.ge ⟨2, ⟨10, usd⟩⟩ ⟨3, ⟨1, usd⟩⟩ = .ok true := by decide

/-- **C09 (negation).** With a large value the product wraps around and the order is inverted: the
larger price is reported to be smaller. -/
theorem C09_counterexample_wrap :
    Quote.lt ⟨2, ⟨2 ^ 62, usd⟩⟩ ⟨2, ⟨1, usd⟩⟩ = .ok true := by decide

/-- **C09 (negation).** With a large value on the right-hand side the comparison is undefined. -/
theorem C09_counterexample_overflow :
    Quote.lt ⟨2, ⟨1, usd⟩⟩ ⟨2, ⟨2 ^ 62, usd⟩⟩ = .ub := by decide

example : InI64 ((12345 : Int) * (100 : Nat)) := by decide

/-! ## Currencies -/

theorem Currency.lt_iff (x0 x1 x2 y0 y1 y2 d e : Nat) :
    Currency.lt ⟨x0, x1, x2, d⟩ ⟨y0, y1, y2, e⟩ = true ↔
        (x0 < y0 ∨ (x0 = y0 ∧ (x1 < y1 ∨ (x1 = y1 ∧ x2 < y2)))) := by
  simp only [Currency.lt]
  repeat' split
  all_goals simp
  all_goals omega

/-- A currency as accepted by the constructor. -/
def Spec.Valid (a : Currency) : Prop :=
  (65 ≤ a.c0 ∧ a.c0 ≤ 90) ∧ (65 ≤ a.c1 ∧ a.c1 ≤ 90) ∧ (65 ≤ a.c2 ∧ a.c2 ≤ 90) ∧ 0 < a.denominator

/-- The constructor accepts exactly the valid codes and stores its arguments. -/
theorem C48_constructor (c0 c1 c2 d : Nat) :
    (∀ a, Currency.make c0 c1 c2 d = .ok a ↔ (a = ⟨c0, c1, c2, d⟩ ∧ Spec.Valid a)) ∧
    (¬ Spec.Valid ⟨c0, c1, c2, d⟩ → Currency.make c0 c1 c2 d = .throws) := by
  unfold Currency.make Spec.Valid
  constructor
  · intro a
    constructor
    · intro h
      repeat' split at h
      all_goals simp at h
      subst h
      simp
      omega
    · rintro ⟨rfl, h⟩
      simp only at h
      rw [if_neg (by omega), if_neg (by omega), if_neg (by omega), if_neg (by omega)]
  · intro h
    simp only at h
    split
    · rfl
    · split
      · rfl
      · split
        · rfl
        · split
          · rfl
          · exfalso; apply h; omega

/-- **C48 (partial).** For currencies with equal denominators, `<` is a strict total order compatible
with `==`, and cash identifiers are equal exactly if the currencies are. Missing: currencies with
the same code and different denominators. -/
theorem C48_same_denominator_partial (t : Nat) (a b : Currency) (ha : Spec.Valid a) (hb : Spec.Valid b)
    (hd : a.denominator = b.denominator) :
    ((a.lt b = false ∧ b.lt a = false) ↔ a.eq b = true) ∧
    (cashIdentifier t a = cashIdentifier t b ↔ a = b) := by
  obtain ⟨x0, x1, x2, d⟩ := a
  obtain ⟨y0, y1, y2, e⟩ := b
  simp only [Spec.Valid] at ha hb hd
  subst hd
  constructor
  · rw [Currency.eq_iff]
    simp only [← Bool.not_eq_true, Currency.lt_iff, Currency.mk.injEq, and_true]
    omega
  · simp only [cashIdentifier, Currency.hash, List.cons.injEq, true_and, and_true, Currency.mk.injEq]
    constructor
    · intro h
      have h0 : x0 - 65 + 26 * x1 - 65 + 26 * 26 * x2 - 65 = y0 - 65 + 26 * y1 - 65 + 26 * 26 * y2 - 65 := h
      omega
    · rintro ⟨rfl, rfl, rfl⟩; rfl

/-- The order is transitive and irreflexive on all currencies. -/
theorem C48_strict_order :
    (∀ a : Currency, a.lt a = false) ∧
    (∀ a b c : Currency, a.lt b = true → b.lt c = true → a.lt c = true) := by
  constructor
  · intro a; simp [Currency.lt]
  · rintro ⟨a0, a1, a2, _⟩ ⟨b0, b1, b2, _⟩ ⟨c0, c1, c2, _⟩
    simp only [Currency.lt_iff]
    omega

/-- **C48 (negation).** Two currencies with the same code but different denominators differ under `==`,
but are equivalent under `<` and give cash the same property identifier. -/
theorem C48_counterexample (t : Nat) :
    ∃ a b : Currency, Spec.Valid a ∧ Spec.Valid b ∧ a.eq b = false ∧ a.lt b = false ∧ b.lt a = false ∧
      cashIdentifier t a = cashIdentifier t b := by
  refine ⟨⟨85, 83, 68, 100⟩, ⟨85, 83, 68, 1000⟩, ?_⟩
  refine ⟨by simp [Spec.Valid], by simp [Spec.Valid], by decide, by decide, by decide, rfl⟩

example : Spec.Valid usd ∧ Spec.Valid eur ∧ eur.lt usd = true := by simp [Spec.Valid, usd, eur]; decide

end Esl.Price
