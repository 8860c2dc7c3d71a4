import Verif.Model.Constants
/-!
C176: the constants of the library in Python.
-/
namespace Esl.Constants
open Esl.Codes (bytes)

theorem assign_absent {α : Type} (l : List (List Nat × α)) (m : List Nat → Option α) (n : List Nat) (h : ∀ e ∈ l, e.1 ≠ n) : assign m l n = m n := by
  induction l generalizing m with
  | nil => rfl
  | cons e l ih =>
    obtain ⟨k, v⟩ := e
    rw [assign, ih _ fun e he => h e (List.mem_cons_of_mem _ he), if_neg fun hn => h (k, v) (by simp) hn.symm]

theorem assign_mem {α : Type} (l : List (List Nat × α)) (m : List Nat → Option α) (n : List Nat) (v : α) (hl : (l.map (·.1)).Nodup) (h : (n, v) ∈ l) : assign m l n = some v := by
  induction l generalizing m with
  | nil => simp at h
  | cons e l ih =>
    obtain ⟨k, w⟩ := e
    rw [List.map_cons, List.nodup_cons] at hl
    rw [assign]
    rcases List.mem_cons.1 h with h | h
    · injection h with h1 h2
      subst h1 h2
      rw [assign_absent, if_pos rfl]
      exact fun e he hn => hl.1 (List.mem_map.2 ⟨e, he, hn⟩)
    · exact ih _ hl.2 h

theorem find_fst {β : Type} (l : List (List Nat × β)) (hl : (l.map (·.1)).Nodup) (n : List Nat) (e : List Nat × β) : (l.find? fun x => x.1 == n) = some e ↔ e.1 = n ∧ e ∈ l := by
  induction l with
  | nil => simp
  | cons x l ih =>
    rw [List.map_cons, List.nodup_cons] at hl
    rw [List.find?_cons]
    by_cases hx : x.1 = n
    · have hb : (x.1 == n) = true := by simp [hx]
      rw [hb]
      simp only [Option.some.injEq]
      constructor
      · intro h; subst h; exact ⟨hx, by simp⟩
      · rintro ⟨h1, h2⟩
        rcases List.mem_cons.1 h2 with h | h
        · exact h.symm
        · exact absurd (List.mem_map.2 ⟨e, h, h1.trans hx.symm⟩) hl.1
    · have hb : (x.1 == n) = false := by simp [hx]
      rw [hb]
      simp only
      rw [ih hl.2, List.mem_cons]
      constructor
      · rintro ⟨h1, h2⟩; exact ⟨h1, .inr h2⟩
      · rintro ⟨h1, h2⟩
        rcases h2 with h | h
        · exact absurd (h ▸ h1) hx
        · exact ⟨h1, h⟩

/-- A table in which every name is assigned the constant of that name. -/
theorem assign_same (l : List (List Nat × List Nat)) (hl : (l.map (·.1)).Nodup) (hs : ∀ e ∈ l, e.2 = e.1) (n m : List Nat) :
    assign (fun _ => none) l n = some m ↔ m = n ∧ n ∈ l.map (·.1) := by
  by_cases h : ∃ v, (n, v) ∈ l
  · obtain ⟨v, h⟩ := h
    have := hs _ h
    simp only at this
    subst this
    rw [assign_mem l _ v v hl h]
    simp only [Option.some.injEq]
    exact ⟨fun e => ⟨e.symm, List.mem_map.2 ⟨_, h, rfl⟩⟩, fun e => e.1.symm⟩
  · rw [assign_absent l _ n fun e he hn => h ⟨e.2, by rw [← hn]; exact he⟩]
    constructor
    · intro h; exact absurd h (by simp)
    · rintro ⟨-, h'⟩
      obtain ⟨e, he, hn⟩ := List.mem_map.1 h'
      exact absurd ⟨e.2, by rw [← hn]; exact he⟩ h

/-- **C176, countries (partial).** The name of each country of the library is in Python that country, and no other name is a country. Missing: Andorra. -/
theorem C176_countries_partial (n c : List Nat) : pythonCountry n = some c ↔ c = n ∧ n ∈ Names.countries ∧ n ≠ bytes "AD" := by
  have hl : (countryAttributes.map (·.1)).Nodup := by decide +kernel
  have hs : ∀ e ∈ countryAttributes, e.2 = e.1 := by decide +kernel
  have h1 : ∀ e ∈ countryAttributes.map (·.1), e ∈ Names.countries ∧ e ≠ bytes "AD" := by decide +kernel
  have h2 : ∀ e ∈ Names.countries, e ≠ bytes "AD" → e ∈ countryAttributes.map (·.1) := by decide +kernel
  have hc : ∀ m, countryConstant m = some c ↔ c = m ∧ c ∈ Names.countries := by
    intro m
    unfold countryConstant
    constructor
    · intro h
      exact ⟨by simpa using List.find?_some h, List.mem_of_find?_eq_some h⟩
    · rintro ⟨rfl, h⟩
      cases hf : Names.countries.find? fun x => x == c with
      | none => exact absurd (List.find?_eq_none.1 hf c h) (by simp)
      | some d => rw [show d = c by simpa using List.find?_some hf]
  unfold pythonCountry
  rw [Option.bind_eq_some_iff]
  constructor
  · rintro ⟨m, hm, h⟩
    obtain ⟨rfl, hm⟩ := (assign_same _ hl hs _ _).1 hm
    obtain ⟨rfl, -⟩ := (hc _).1 h
    exact ⟨rfl, (h1 _ hm).1, (h1 _ hm).2⟩
  · rintro ⟨rfl, h, hx⟩
    exact ⟨c, (assign_same _ hl hs _ _).2 ⟨rfl, h2 _ h hx⟩, (hc _).2 ⟨rfl, h⟩⟩

/-- **C176, currencies.** The name of each currency of the library is in Python that currency, with its code and its smallest unit, and no other name is a currency. -/
theorem C176_currencies (n c : List Nat) (d : Nat) : pythonCurrency n = some (c, d) ↔ c = n ∧ (c, d) ∈ Names.currencies := by
  have hl : (currencyAttributes.map (·.1)).Nodup := by decide +kernel
  have hs : ∀ e ∈ currencyAttributes, e.2 = e.1 := by decide +kernel
  have hn : (Names.currencies.map (·.1)).Nodup := by decide +kernel
  have h2 : ∀ e ∈ Names.currencies, e.1 ∈ currencyAttributes.map (·.1) := by decide +kernel
  unfold pythonCurrency
  rw [Option.bind_eq_some_iff]
  constructor
  · rintro ⟨m, hm, h⟩
    obtain ⟨rfl, hm⟩ := (assign_same _ hl hs _ _).1 hm
    exact (find_fst _ hn _ _).1 h
  · rintro ⟨rfl, h⟩
    exact ⟨c, (assign_same _ hl hs _ _).2 ⟨rfl, h2 _ h⟩, (find_fst _ hn _ _).2 ⟨rfl, h⟩⟩

/-- **C176, jurisdictions.** The name of each jurisdiction of the library is in Python that jurisdiction, with its country and its currency, and no other name is a jurisdiction. -/
theorem C176_jurisdictions (n c t : List Nat) : pythonJurisdiction n = some (c, t) ↔ (n, c, t) ∈ Names.jurisdictions := by
  have hl : (jurisdictionAttributes.map (·.1)).Nodup := by decide +kernel
  have hs : ∀ e ∈ jurisdictionAttributes, e.2 = e.1 := by decide +kernel
  have hn : (Names.jurisdictions.map (·.1)).Nodup := by decide +kernel
  have h2 : ∀ e ∈ Names.jurisdictions, e.1 ∈ jurisdictionAttributes.map (·.1) := by decide +kernel
  unfold pythonJurisdiction jurisdictionConstant
  rw [Option.bind_eq_some_iff]
  constructor
  · rintro ⟨m, hm, h⟩
    obtain ⟨rfl, hm⟩ := (assign_same _ hl hs _ _).1 hm
    rw [Option.map_eq_some_iff] at h
    obtain ⟨⟨k, c', t'⟩, h, he⟩ := h
    obtain ⟨hk, hmem⟩ := (find_fst _ hn _ _).1 h
    simp only [Prod.mk.injEq] at he hk
    rw [← he.1, ← he.2, ← hk]
    exact hmem
  · intro h
    exact ⟨n, (assign_same _ hl hs _ _).2 ⟨rfl, h2 _ h⟩, by rw [(find_fst _ hn n (n, c, t)).2 ⟨rfl, h⟩]; rfl⟩

/-- **C176 is violated**: Andorra is a country of the library, and the country of one of its jurisdictions, but not one in Python. -/
theorem C176_counterexample_missing :
    bytes "AD" ∈ Names.countries ∧ pythonCountry (bytes "AD") = none ∧ pythonJurisdiction (bytes "AD") = some (bytes "AD", bytes "EUR") := by
  decide +kernel

example : pythonCurrency (bytes "JPY") = some (bytes "JPY", 1) ∧ pythonCountry (bytes "NL") = some (bytes "NL") ∧ pythonJurisdiction (bytes "NL") = some (bytes "NL", bytes "EUR") ∧ pythonCountry (bytes "XX") = none := by
  decide +kernel

end Esl.Constants
