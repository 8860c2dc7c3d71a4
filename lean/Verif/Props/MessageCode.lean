import Verif.Model.MessageCode
/-! # C68: message codes -/
namespace Esl.MessageCode

theorem mask_or (o : Nat) (h : o < mask) : mask ||| o = mask + o := by
  have := Nat.two_pow_add_eq_or_of_lt (i := 63) (b := o) (by simpa [mask] using h) 1
  simp only [Nat.mul_one] at this
  have e : mask = 2 ^ 63 := by decide
  rw [e]; exact this.symm

/-- **C68 (partial).** For offsets below the mask (all that fit in the lower 63 bits) the codes are defined, fit in 64 bits, are distinct for distinct offsets, differ from every user code (a
code without the highest bit), and the offset can be recovered. Missing: the offset equal to the mask, which the code accepts. -/
theorem C68_codes_partial (o p : Nat) (ho : o < mask) (hp : p < mask) :
    ∃ c d, code o = some c ∧ code p = some d ∧ c < 2 ^ 64 ∧ (c = d ↔ o = p) ∧ (∀ user, user < 2 ^ 63 → c ≠ user) ∧ offset c = some o := by
  have h1 := mask_or o ho
  have h2 := mask_or p hp
  have e : mask = 2 ^ 63 := by decide
  refine ⟨_, _, if_pos (by omega), if_pos (by omega), ?_, ?_, ?_, ?_⟩
  · rw [h1]; omega
  · rw [h1, h2]; omega
  · intro u hu; rw [h1]; omega
  · unfold offset
    have h3 : mask &&& (mask ||| o) ≠ 0 := by
      rw [Nat.and_or_distrib_left, Nat.and_self]
      intro h
      have := Nat.or_eq_zero_iff.1 h
      have := this.1
      omega
    rw [if_pos h3]
    have h4 : (2 ^ 64 - 1 - mask) = 2 ^ 63 - 1 := by decide
    rw [h4, Nat.and_comm, Nat.and_two_pow_sub_one_eq_mod, h1, e]
    congr 1
    omega

/-- **C68, negation.** The offset equal to the mask is accepted and has the same code as the offset zero. -/
theorem C68_counterexample_mask : code mask = code 0 ∧ code mask ≠ none ∧ mask ≠ 0 := by decide

/-- The message classes of the library itself have pairwise different codes. -/
theorem C68_library_classes : (used.map code).Nodup ∧ ∀ o ∈ used, o < mask := by decide

example : code 0x2 = some 0x8000000000000002 ∧ offset 0x8000000000000F01 = some 0xF01 := by decide

end Esl.MessageCode
