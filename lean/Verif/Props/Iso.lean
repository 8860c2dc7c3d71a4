import Verif.Spec.Iso
import Verif.Props.Names
import Verif.Model.Jurisdictions
/-!
The tables of countries and currencies against the standards: C108 (names), C121 (smallest units), C122 (jurisdictions).
-/
namespace Esl.Names
open Esl.Codes

/-- **C108**, partial: the name of every country constant, except for Andorra and India, contains the text that tells this country apart. -/
theorem C108_iso_partial (c w : String) (h : (c, w) ∈ Spec.keywords) (hx : c ≠ "AD" ∧ c ≠ "IN") : bytes c ∈ countries ∧ ∃ p q, countryName (bytes c) = p ++ bytes w ++ q := by
  have key : ∀ e ∈ Spec.keywords, e.1 ≠ "AD" ∧ e.1 ≠ "IN" → bytes e.1 ∈ countries ∧ ((List.range 60).any fun k => (bytes e.2).isPrefixOf ((countryName (bytes e.1)).drop k)) = true := by decide +kernel
  obtain ⟨h1, h2⟩ := key (c, w) h hx
  refine ⟨h1, ?_⟩
  obtain ⟨k, _, hk⟩ := List.any_eq_true.1 h2
  obtain ⟨q, hq⟩ := List.isPrefixOf_iff_prefix.1 hk
  refine ⟨(countryName (bytes c)).take k, q, ?_⟩
  rw [List.append_assoc, hq, List.take_append_drop]

/-- Every country constant is a country of the standard. -/
theorem C108_iso_complete (c : List Nat) (h : c ∈ countries) : ∃ e ∈ Spec.keywords, bytes e.1 = c := by
  have key : ∀ c ∈ countries, (Spec.keywords.any fun e => bytes e.1 == c) = true := by decide +kernel
  obtain ⟨e, he, hc⟩ := List.any_eq_true.1 (key c h)
  exact ⟨e, he, by simpa using hc⟩

theorem of_bytes (s : String) : String.ofList ((bytes s).map Char.ofNat) = s := by
  have : (bytes s).map Char.ofNat = s.toList := by
    unfold bytes
    rw [List.map_map]
    conv => rhs; rw [← List.map_id s.toList]
    apply List.map_congr_left
    intro c _
    exact Char.ofNat_toNat c
  rw [this, String.ofList_toList]

/-- **C121**, partial: every currency constant has as many of its smallest units as the standard says, except for the Tunisian dinar, the Unidad de Fomento and the Uruguayan indexed peso. -/
theorem C121_units_partial (c : String) (d : Nat) (h : (bytes c, d) ∈ currencies) (hx : c ≠ "TND" ∧ c ≠ "CLF" ∧ c ≠ "UYI") (u : Nat) (hu : Spec.unitsOf c = some u) : d = u := by
  have key : ∀ e ∈ currencies, String.ofList (e.1.map Char.ofNat) ≠ "TND" ∧ String.ofList (e.1.map Char.ofNat) ≠ "CLF" ∧ String.ofList (e.1.map Char.ofNat) ≠ "UYI" →
      Spec.unitsOf (String.ofList (e.1.map Char.ofNat)) = some e.2 ∨ Spec.unitsOf (String.ofList (e.1.map Char.ofNat)) = none := by decide +kernel
  have := key (bytes c, d) h
  rw [of_bytes] at this
  rcases this hx with e | e <;> rw [hu] at e
  · injection e with e; exact e.symm
  · cases e

example : (bytes "JPY", 1) ∈ currencies ∧ (bytes "KWD", 1000) ∈ currencies ∧ (bytes "USD", 100) ∈ currencies := by decide +kernel

/-- **C121 is violated**: amounts of these currencies are rounded to hundredths. -/
theorem C121_counterexample_units :
    ((bytes "TND", 100) ∈ currencies ∧ Spec.unitsOf "TND" = some 1000) ∧ ((bytes "CLF", 100) ∈ currencies ∧ Spec.unitsOf "CLF" = some 10000) ∧ ((bytes "UYI", 100) ∈ currencies ∧ Spec.unitsOf "UYI" = some 1) := by
  decide +kernel

/-- **C122**, partial: each jurisdiction constant has the country that it is named after and a currency constant of that country: one that begins with the code of the country, or that the country shares. No two
have the same country. -/
theorem C122_jurisdictions_partial :
    (jurisdictions.map (·.1)).Nodup ∧
    ∀ n c t, (n, c, t) ∈ jurisdictions → c = n ∧ c ∈ countries ∧ (∃ d, (t, d) ∈ currencies) ∧ (t.take 2 = c ∨ ∃ e ∈ Spec.shared, bytes e.1 = t ∧ ∃ x ∈ e.2, bytes x = c) := by
  constructor
  · decide +kernel
  · have key : ∀ j ∈ jurisdictions, j.2.1 = j.1 ∧ j.2.1 ∈ countries ∧ (currencies.any fun e => e.1 == j.2.2) = true ∧
        (j.2.2.take 2 = j.2.1 ∨ (Spec.shared.any fun e => bytes e.1 == j.2.2 && e.2.any fun x => bytes x == j.2.1) = true) := by decide +kernel
    intro n c t h
    obtain ⟨h1, h2, h3, h4⟩ := key _ h
    refine ⟨h1, h2, ?_, ?_⟩
    · obtain ⟨⟨t', d⟩, hd, e⟩ := List.any_eq_true.1 h3
      have e : t' = t := by simpa using e
      exact ⟨d, e ▸ hd⟩
    · rcases h4 with h4 | h4
      · exact Or.inl h4
      · obtain ⟨e, he, hh⟩ := List.any_eq_true.1 h4
        rw [Bool.and_eq_true] at hh
        obtain ⟨x, hx, hc⟩ := List.any_eq_true.1 hh.2
        exact Or.inr ⟨e, he, by simpa using hh.1, x, hx, by simpa using hc⟩

/-- **C122 is violated**: exactly five countries have no jurisdiction: Antarctica, the Falkland Islands, South Georgia, Palestine and Taiwan. -/
theorem C122_counterexample_missing (c : List Nat) (h : c ∈ countries) : (¬ ∃ t, (c, c, t) ∈ jurisdictions) ↔ c = bytes "AQ" ∨ c = bytes "FK" ∨ c = bytes "GS" ∨ c = bytes "PS" ∨ c = bytes "TW" := by
  have key : ∀ c ∈ countries, (jurisdictions.any fun j => j.1 == c && j.2.1 == c) = false ↔ c = bytes "AQ" ∨ c = bytes "FK" ∨ c = bytes "GS" ∨ c = bytes "PS" ∨ c = bytes "TW" := by decide +kernel
  rw [← key c h, ← Bool.not_eq_true, not_congr]
  rw [List.any_eq_true]
  constructor
  · rintro ⟨t, ht⟩; exact ⟨_, ht, by simp⟩
  · rintro ⟨⟨n, c', t⟩, hm, hh⟩
    simp only [Bool.and_eq_true, beq_iff_eq] at hh
    obtain ⟨rfl, rfl⟩ := hh
    exact ⟨t, hm⟩

example : (bytes "NL", bytes "NL", bytes "EUR") ∈ jurisdictions ∧ bytes "TW" ∈ countries := by decide +kernel

end Esl.Names
