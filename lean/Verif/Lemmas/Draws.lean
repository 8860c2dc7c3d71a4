import Verif.Model.Draws

/-! Lemmas about the random numbers of a turn. -/

namespace Esl.Draws

theorem twist_twist (x : Word) : twist (twist x) = x := by
  apply BitVec.eq_of_getLsbD_eq
  intro i hi
  simp only [twist, BitVec.getLsbD_xor, BitVec.getLsbD_ushiftRight]
  have : x.getLsbD (27 + (27 + i)) = false := BitVec.getLsbD_of_ge _ _ (by omega)
  rw [this]
  cases x.getLsbD i <;> cases x.getLsbD (27 + i) <;> rfl

theorem twist_inj {x y : Word} (h : twist x = twist y) : x = y := by
  rw [← twist_twist x, h, twist_twist]

/-- A step of the first phase for one word. -/
def mix (b c : Word) : Word := 1664525#32 * twist b + c

/-- The step of the second phase for one word. -/
def last (b : Word) : Word := 1566083941#32 * twist (b + b + b)

theorem mul_inj (a i : Word) (hi : i * a = 1#32) {x y : Word} (h : a * x = a * y) : x = y := by
  have := congrArg (i * ·) h
  simp only [← BitVec.mul_assoc, hi, BitVec.one_mul] at this
  exact this

theorem mul_surj (a i : Word) (hi : a * i = 1#32) (y : Word) : ∃ x, a * x = y :=
  ⟨i * y, by rw [← BitVec.mul_assoc, hi, BitVec.one_mul]⟩

theorem mix_inj_left (c : Word) {x y : Word} (h : mix x c = mix y c) : x = y := by
  unfold mix at h
  exact twist_inj (mul_inj 1664525#32 4276115653#32 (by decide) (BitVec.add_right_inj _ |>.mp (by rw [BitVec.add_comm c, BitVec.add_comm c]; exact h)))

theorem mix_inj_right (b : Word) {c d : Word} (h : mix b c = mix b d) : c = d := (BitVec.add_right_inj _).mp h

theorem mix_surj_left (c y : Word) : ∃ x, mix x c = y := by
  obtain ⟨z, hz⟩ := mul_surj 1664525#32 4276115653#32 (by decide) (y - c)
  exact ⟨twist z, by rw [mix, twist_twist, hz, BitVec.sub_add_cancel]⟩

theorem mix_surj_right (b y : Word) : ∃ c, mix b c = y :=
  ⟨y - 1664525#32 * twist b, by rw [mix, BitVec.add_comm, BitVec.sub_add_cancel]⟩

theorem three (b : Word) : b + b + b = 3#32 * b := by
  apply BitVec.eq_of_toNat_eq
  simp only [BitVec.toNat_add, BitVec.toNat_mul, BitVec.toNat_ofNat]
  omega

theorem last_inj {x y : Word} (h : last x = last y) : x = y := by
  unfold last at h
  have := twist_inj (mul_inj 1566083941#32 1786162797#32 (by decide) h)
  rw [three, three] at this
  exact mul_inj 3#32 2863311531#32 (by decide) this

theorem fold_inj (r : List Word) {x y : Word} (h : r.foldl mix x = r.foldl mix y) : x = y := by
  induction r generalizing x y with
  | nil => exact h
  | cons c r ih => exact mix_inj_left c (ih h)

theorem fold_surj (r : List Word) (y : Word) : ∃ x, r.foldl mix x = y := by
  induction r with
  | nil => exact ⟨y, rfl⟩
  | cons c r ih =>
    obtain ⟨z, hz⟩ := ih
    obtain ⟨x, hx⟩ := mix_surj_left c z
    exact ⟨x, by rw [List.foldl_cons, hx, hz]⟩

theorem at_one (b : Word) (i : Nat) : at_ [b] i = b := by simp [at_, Nat.mod_one]

theorem put_one (b : Word) (i : Nat) (x : Word) : put [b] i x = [x] := by simp [put, Nat.mod_one]

theorem stir_one (v : List Word) (b : Word) (k : Nat) : stir v [b] k = [mix b (extra v 1 k)] := by
  simp only [stir, put_one, at_one, BitVec.xor_self, BitVec.zero_xor, mix, List.length_cons, List.length_nil]

theorem settle_one (b : Word) (k : Nat) : settle [b] k = [last b] := by
  simp only [settle, put_one, at_one, last, List.length_cons, List.length_nil, Nat.zero_add, Nat.mod_one, BitVec.sub_zero, BitVec.ofNat_eq_ofNat]

theorem extra_succ (v : List Word) (k : Nat) (hk : k < v.length) : extra v 1 (k + 1) = v.getD k 0 := by
  have : k + 1 ≤ v.length := hk
  simp [extra, Nat.mod_one, this]

theorem fold_stir (v : List Word) (ks : List Nat) (b : Word) : ks.foldl (stir v) [b] = [(ks.map (extra v 1)).foldl mix b] := by
  induction ks generalizing b with
  | nil => rfl
  | cons k ks ih => rw [List.foldl_cons, stir_one, ih]; rfl

theorem extras (v : List Word) : (List.range (v.length + 1)).map (extra v 1) = BitVec.ofNat 32 v.length :: v := by
  rw [List.range_succ_eq_map, List.map_cons, List.map_map]
  congr 1
  apply List.ext_getElem
  · simp
  · intro i h1 h2
    simp only [List.getElem_map, List.getElem_range, Function.comp]
    rw [Nat.succ_eq_add_one, extra_succ v i h2]
    simp [h2]

/-- One word: the seed is folded into it. -/
theorem generate_one (v : List Word) : generate v 1 = [last (v.foldl mix (mix 0x8b8b8b8b#32 (BitVec.ofNat 32 v.length)))] := by
  have hm : max (v.length + 1) 1 = v.length + 1 := by omega
  simp only [generate, hm, List.replicate, fold_stir, extras]
  simp only [List.range_one, List.map_cons, List.map_nil, List.foldl_cons, List.foldl_nil, settle_one]

theorem call_eq (v : List Word) : (call v).1 = last (v.foldl mix (mix 0x8b8b8b8b#32 (BitVec.ofNat 32 v.length))) := by
  simp [call, generate_one]

theorem call_inj (l r : List Word) {a b : Word} (h : (call (l ++ a :: r)).1 = (call (l ++ b :: r)).1) : a = b := by
  rw [call_eq, call_eq] at h
  have := last_inj h
  simp only [List.length_append, List.length_cons, List.foldl_append, List.foldl_cons] at this
  exact mix_inj_right _ (fold_inj r this)

theorem call_surj (l r l' r' : List Word) (a : Word) (hl : l.length = l'.length) (hr : r.length = r'.length) : ∃ b, (call (l' ++ b :: r')).1 = (call (l ++ a :: r)).1 := by
  simp only [call_eq, List.length_append, List.length_cons, hl, hr, List.foldl_append, List.foldl_cons]
  obtain ⟨z, hz⟩ := fold_surj r' (r.foldl mix (mix (l.foldl mix (mix 0x8b8b8b8b#32 (BitVec.ofNat 32 (l'.length + (r'.length + 1))))) a))
  obtain ⟨b, hb⟩ := mix_surj_right (l'.foldl mix (mix 0x8b8b8b8b#32 (BitVec.ofNat 32 (l'.length + (r'.length + 1))))) z
  exact ⟨b, by rw [hb, hz]⟩

end Esl.Draws
