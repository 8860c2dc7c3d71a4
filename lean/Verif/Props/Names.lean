import Verif.Model.Names
import Verif.Props.Codes
/-! C108: country names; C109: currency names. -/
namespace Esl.Names
open Esl.Codes

/-! ## Specification -/

/-- A code: the given number of upper-case letters. -/
def Spec.Code (n : Nat) (c : List Nat) : Prop := c.length = n ∧ ∀ x ∈ c, 65 ≤ x ∧ x ≤ 90

instance (n : Nat) (c : List Nat) : Decidable (Spec.Code n c) := by unfold Spec.Code; infer_instance

/-! ## Looking up by hash is looking up by code -/

theorem sub65 (n : Nat) (h : 65 ≤ n) (hn : n < 2 ^ 64) : u64 (n + (2 ^ 64 - 65)) = n - 65 := by
  unfold u64; omega

theorem u64_small (n : Nat) (hn : n < 2 ^ 64) : u64 n = n := Nat.mod_eq_of_lt hn

theorem countryHash_value (a b : Nat) (ha : 65 ≤ a ∧ a ≤ 90) (hb : 65 ≤ b ∧ b ≤ 90) : countryUniqueHash [a, b] = a + 26 * b - 130 := by
  simp only [countryUniqueHash]
  rw [sub65 a ha.1 (by omega), u64_small (a - 65 + 26 * b) (by omega), u64_small (a - 65 + 26 * b) (by omega), sub65 _ (by omega) (by omega)]
  omega

theorem currencyHash_value (a b d : Nat) (ha : 65 ≤ a ∧ a ≤ 90) (hb : 65 ≤ b ∧ b ≤ 90) (hd : 65 ≤ d ∧ d ≤ 90) : currencyHash [a, b, d] = a + 26 * b + 676 * d - 195 := by
  simp only [currencyHash]
  rw [sub65 a ha.1 (by omega), u64_small (a - 65 + 26 * b) (by omega), sub65 (a - 65 + 26 * b) (by omega) (by omega), u64_small (_ + 676 * d) (by omega), sub65 _ (by omega) (by omega)]
  omega

theorem countryHash_injective (c d : List Nat) (hc : Spec.Code 2 c) (hd : Spec.Code 2 d) : countryUniqueHash c = countryUniqueHash d ↔ c = d := by
  obtain ⟨lc, uc⟩ := hc
  obtain ⟨ld, ud⟩ := hd
  match c, lc, d, ld with
  | [a, b], _, [e, f], _ =>
    have ha := uc a (by simp)
    have hb := uc b (by simp)
    have he := ud e (by simp)
    have hf := ud f (by simp)
    constructor
    · intro h
      rw [countryHash_value a b ha hb, countryHash_value e f he hf] at h
      have : a = e ∧ b = f := by omega
      rw [this.1, this.2]
    · intro h; rw [h]

theorem currencyHash_injective (c d : List Nat) (hc : Spec.Code 3 c) (hd : Spec.Code 3 d) : currencyHash c = currencyHash d ↔ c = d := by
  obtain ⟨lc, uc⟩ := hc
  obtain ⟨ld, ud⟩ := hd
  match c, lc, d, ld with
  | [a, b, g], _, [e, f, h'], _ =>
    have ha := uc a (by simp)
    have hb := uc b (by simp)
    have hg := uc g (by simp)
    have he := ud e (by simp)
    have hf := ud f (by simp)
    have hh := ud h' (by simp)
    constructor
    · intro h
      rw [currencyHash_value a b g ha hb hg, currencyHash_value e f h' he hf hh] at h
      have : a = e ∧ b = f ∧ g = h' := by omega
      rw [this.1, this.2.1, this.2.2]
    · intro h; rw [h]

theorem switchOn_eq (hash : List Nat → Nat) (n : Nat) (inj : ∀ c d, Spec.Code n c → Spec.Code n d → (hash c = hash d ↔ c = d)) (cases : List (List Nat × List Nat))
    (hcodes : ∀ e ∈ cases, Spec.Code n e.1) (c : List Nat) (hc : Spec.Code n c) : switchOn hash cases c = cases.lookup c := by
  unfold switchOn
  induction cases with
  | nil => rfl
  | cons e l ih =>
    obtain ⟨k, v⟩ := e
    have ih := ih fun x hx => hcodes x (List.mem_cons_of_mem _ hx)
    have hk := inj k c (hcodes (k, v) List.mem_cons_self) hc
    rw [List.find?_cons, List.lookup_cons]
    by_cases h : k = c
    · subst h
      simp
    · have h1 : (hash k == hash c) = false := by
        rw [beq_eq_false_iff_ne]; intro h'; exact h (hk.1 h')
      have h2 : (c == k) = false := by
        rw [beq_eq_false_iff_ne]; intro h'; exact h h'.symm
      simp only [h1, h2]
      exact ih

theorem mem_of_lookup {c n : List Nat} {l : List (List Nat × List Nat)} (h : l.lookup c = some n) : (c, n) ∈ l := by
  induction l with
  | nil => cases h
  | cons e l ih =>
    obtain ⟨k, v⟩ := e
    rw [List.lookup_cons] at h
    cases hx : c == k with
    | true =>
      rw [hx] at h
      injection h with h
      rw [eq_of_beq hx, h]
      exact List.mem_cons_self
    | false =>
      rw [hx] at h
      exact List.mem_cons_of_mem _ (ih h)

theorem lookup_of_mem {c n : List Nat} {l : List (List Nat × List Nat)} (hn : (l.map (·.1)).Nodup) (h : (c, n) ∈ l) : l.lookup c = some n := by
  induction l with
  | nil => cases h
  | cons e l ih =>
    obtain ⟨k, v⟩ := e
    rw [List.map_cons, List.nodup_cons] at hn
    rw [List.lookup_cons]
    rcases List.mem_cons.1 h with h | h
    · injection h with h1 h2
      rw [h1, h2]; simp
    · have : (c == k) = false := by
        rw [beq_eq_false_iff_ne]
        intro hck
        exact hn.1 (List.mem_map.2 ⟨(c, n), ‹(c, n) ∈ l›, hck⟩)
      rw [this]
      exact ih hn.2 h

theorem injective_of_nodup {l : List (List Nat × List Nat)} (hn : (l.map (·.2)).Nodup) {c d n : List Nat} (hc : (c, n) ∈ l) (hd : (d, n) ∈ l) : c = d := by
  induction l with
  | nil => cases hc
  | cons e l ih =>
    rw [List.map_cons, List.nodup_cons] at hn
    rcases List.mem_cons.1 hc with hc | hc <;> rcases List.mem_cons.1 hd with hd | hd
    · rw [← hd] at hc; injection hc
    · exact absurd (List.mem_map.2 ⟨(d, n), hd, rfl⟩) (by rw [← hc] at hn; exact hn.1)
    · exact absurd (List.mem_map.2 ⟨(c, n), hc, rfl⟩) (by rw [← hd] at hn; exact hn.1)
    · exact ih hn.2 hc hd

/-! ## The tables -/

theorem countryNames_codes : ∀ e ∈ countryNames, Spec.Code 2 e.1 := by decide +kernel
theorem countryNames_nodup : (countryNames.map (·.1)).Nodup := by decide +kernel
theorem countryNames_distinct : (countryNames.map (·.2)).Nodup := by decide +kernel
theorem countryNames_prefix : ∀ e ∈ countryNames, ¬ e.2.take 19 = countryPrefix := by decide +kernel
theorem currencyNames_codes : ∀ e ∈ currencyNames, Spec.Code 3 e.1 := by decide +kernel
theorem currencyNames_nodup : (currencyNames.map (·.1)).Nodup := by decide +kernel
theorem currencyNames_distinct : (currencyNames.map (·.2)).Nodup := by decide +kernel
theorem currencyNames_not_code : ∀ e ∈ currencyNames, ¬ Spec.Code 3 e.2 := by decide +kernel

/-! ## Countries -/

/-- **C108.** For every country code (two upper-case letters), the name is the one that the table has for that very code, and the text `iso_3166_1_alpha_2 ` with the code if there is none. -/
theorem C108_lookup (c : List Nat) (hc : Spec.Code 2 c) :
    (∀ n, (c, n) ∈ countryNames → countryName c = n) ∧ ((∀ n, (c, n) ∉ countryNames) → countryName c = bytes "iso_3166_1_alpha_2 " ++ c) := by
  have e : countryName c = (countryNames.lookup c).getD (countryPrefix ++ c) := by
    unfold countryName
    rw [switchOn_eq _ 2 countryHash_injective _ countryNames_codes _ hc]
  rw [e]
  constructor
  · intro n hn
    rw [lookup_of_mem countryNames_nodup hn]; rfl
  · intro hn
    cases hl : countryNames.lookup c with
    | none =>
      have : countryPrefix = bytes "iso_3166_1_alpha_2 " := by decide +kernel
      rw [this]; rfl
    | some n => exact absurd (mem_of_lookup hl) (hn n)

/-- **C108.** Different country codes have different names. -/
theorem C108_distinct (c d : List Nat) (hc : Spec.Code 2 c) (hd : Spec.Code 2 d) : countryName c = countryName d ↔ c = d := by
  refine ⟨fun h => ?_, fun h => by rw [h]⟩
  unfold countryName at h
  rw [switchOn_eq _ 2 countryHash_injective _ countryNames_codes _ hc, switchOn_eq _ 2 countryHash_injective _ countryNames_codes _ hd] at h
  have key : ∀ (x y : List Nat), (x, countryPrefix ++ y) ∉ countryNames := by
    intro x y hx
    exact countryNames_prefix _ hx (List.take_left (l₁ := countryPrefix))
  cases h1 : countryNames.lookup c with
  | none =>
    cases h2 : countryNames.lookup d with
    | none =>
      rw [h1, h2] at h
      exact List.append_cancel_left h
    | some n =>
      rw [h1, h2] at h
      have hm := mem_of_lookup h2
      replace h : countryPrefix ++ c = n := h
      rw [← h] at hm
      exact absurd hm (key _ _)
  | some n =>
    cases h2 : countryNames.lookup d with
    | none =>
      rw [h1, h2] at h
      have hm := mem_of_lookup h1
      replace h : n = countryPrefix ++ d := h
      rw [h] at hm
      exact absurd hm (key _ _)
    | some m =>
      rw [h1, h2] at h
      replace h : n = m := h
      subst h
      exact injective_of_nodup countryNames_distinct (mem_of_lookup h1) (mem_of_lookup h2)

/-- **C108 (partial).** Every country constant except `AD` and `IN` has a name from the table. -/
theorem C108_named_partial (c : List Nat) (hc : c ∈ countries) (hx : c ≠ bytes "AD" ∧ c ≠ bytes "IN") : ∃ n, (c, n) ∈ countryNames ∧ countryName c = n := by
  have key : ∀ c ∈ countries, Spec.Code 2 c ∧ (c ≠ bytes "AD" ∧ c ≠ bytes "IN" → (countryNames.lookup c).isSome = true) := by decide +kernel
  obtain ⟨h1, h2⟩ := key c hc
  obtain ⟨n, hn⟩ := Option.isSome_iff_exists.1 (h2 hx)
  exact ⟨n, mem_of_lookup hn, (C108_lookup c h1).1 n (mem_of_lookup hn)⟩

/-- **C108 is violated** for Andorra and India: they are country constants, but the name is not theirs: it is the text for unknown codes. -/
theorem C108_counterexample_unnamed :
    bytes "AD" ∈ countries ∧ countryName (bytes "AD") = bytes "iso_3166_1_alpha_2 AD" ∧ bytes "IN" ∈ countries ∧ countryName (bytes "IN") = bytes "iso_3166_1_alpha_2 IN" := by
  decide +kernel

example : countryName (bytes "NL") = bytes "Netherlands" ∧ countryName (bytes "ZZ") = bytes "iso_3166_1_alpha_2 ZZ" := by decide +kernel

/-! ## Currencies -/

/-- **C109.** For every currency code (three upper-case letters), the name is the one that the table has for that very code, and the code itself if there is none. -/
theorem C109_lookup (c : List Nat) (hc : Spec.Code 3 c) :
    (∀ n, (c, n) ∈ currencyNames → currencyName c = n) ∧ ((∀ n, (c, n) ∉ currencyNames) → currencyName c = c) := by
  have e : currencyName c = (currencyNames.lookup c).getD c := by
    unfold currencyName
    rw [switchOn_eq _ 3 currencyHash_injective _ currencyNames_codes _ hc]
  rw [e]
  constructor
  · intro n hn
    rw [lookup_of_mem currencyNames_nodup hn]; rfl
  · intro hn
    cases hl : currencyNames.lookup c with
    | none => rfl
    | some n => exact absurd (mem_of_lookup hl) (hn n)

/-- **C109.** Different currency codes have different names. -/
theorem C109_distinct (c d : List Nat) (hc : Spec.Code 3 c) (hd : Spec.Code 3 d) : currencyName c = currencyName d ↔ c = d := by
  refine ⟨fun h => ?_, fun h => by rw [h]⟩
  unfold currencyName at h
  rw [switchOn_eq _ 3 currencyHash_injective _ currencyNames_codes _ hc, switchOn_eq _ 3 currencyHash_injective _ currencyNames_codes _ hd] at h
  cases h1 : currencyNames.lookup c with
  | none =>
    cases h2 : currencyNames.lookup d with
    | none => rw [h1, h2] at h; exact h
    | some n =>
      rw [h1, h2] at h
      replace h : c = n := h
      exact absurd (h ▸ hc) (currencyNames_not_code _ (mem_of_lookup h2))
  | some n =>
    cases h2 : currencyNames.lookup d with
    | none =>
      rw [h1, h2] at h
      replace h : n = d := h
      exact absurd (h ▸ hd) (currencyNames_not_code _ (mem_of_lookup h1))
    | some m =>
      rw [h1, h2] at h
      replace h : n = m := h
      subst h
      exact injective_of_nodup currencyNames_distinct (mem_of_lookup h1) (mem_of_lookup h2)

/-- **C109.** All currency constants can be constructed, and no two have the same code. -/
theorem C109_constants : (∀ e ∈ currencies, currency e.1 e.2 = .ok e) ∧ (currencies.map (·.1)).Nodup := by
  constructor <;> decide +kernel

/-- **C109.** A currency is accepted exactly if its code consists of three upper-case letters and its denominator is positive, and then it is unchanged; and the hash tells the codes apart. -/
theorem C109_accepts (c : List Nat) (hl : c.length = 3) (d : Nat) :
    (currency c d = .ok (c, d) ↔ Spec.Code 3 c ∧ 0 < d) ∧ (¬ (Spec.Code 3 c ∧ 0 < d) → currency c d = .throws) := by
  match c, hl with
  | [x, y, z], _ =>
    have hu : (isUpper x && isUpper y && isUpper z) = true ↔ Spec.Code 3 [x, y, z] := by
      simp [isUpper, Spec.Code, and_assoc]
    simp only [currency]
    by_cases h : (isUpper x && isUpper y && isUpper z) = true
    · rw [if_pos h]
      by_cases hd : d = 0
      · simp [hd]
      · rw [if_neg hd]
        exact ⟨⟨fun _ => ⟨hu.1 h, by omega⟩, fun _ => rfl⟩, fun hn => absurd ⟨hu.1 h, by omega⟩ hn⟩
    · rw [if_neg h]
      exact ⟨⟨fun h' => (nomatch h'), fun h' => absurd (hu.2 h'.1) h⟩, fun _ => rfl⟩

/-- **C109.** Currency codes have the same hash exactly if they are the same. -/
theorem C109_hash (c d : List Nat) (hc : Spec.Code 3 c) (hd : Spec.Code 3 d) : currencyHash c = currencyHash d ↔ c = d := currencyHash_injective c d hc hd

example : currencyName (bytes "JPY") = bytes "Yen" ∧ currencyName (bytes "USN") = bytes "USN" ∧ currencyHash (bytes "USD") ≠ currencyHash (bytes "DSU") := by decide +kernel

/-- The hypotheses of the lookups and of `C108_named_partial`. -/
example : Spec.Code 2 (bytes "NL") ∧ Spec.Code 3 (bytes "USN") ∧ ¬ Spec.Code 2 (bytes "nl") ∧ bytes "NL" ∈ countries ∧ bytes "NL" ≠ bytes "AD" ∧ bytes "NL" ≠ bytes "IN" := by decide +kernel

end Esl.Names
