import Verif.Lemmas.Draws
import Verif.Props.Seeds

/-! # Random numbers from the seed of a turn (C180) -/

namespace Esl.Draws
open Esl.Sched

variable {σ : Type}

/-! ## Specification -/

/-- Seeds that differ in one word only. -/
def Spec.OneWord (v w : List Word) : Prop := v.length = w.length ∧ ∃ i : Nat, v[i]? ≠ w[i]? ∧ ∀ j : Nat, j ≠ i → v[j]? = w[j]?

theorem oneWord_split (v w : List Word) (h : Spec.OneWord v w) : ∃ l a b r, v = l ++ a :: r ∧ w = l ++ b :: r ∧ a ≠ b := by
  obtain ⟨hlen, i, hi, hj⟩ := h
  have h1 : i < v.length := by
    rcases Nat.lt_or_ge i v.length with h | h
    · exact h
    · rw [List.getElem?_eq_none (by omega), List.getElem?_eq_none (by omega)] at hi
      exact absurd rfl hi
  have h2 : i < w.length := by omega
  refine ⟨v.take i, v[i], w[i], v.drop (i + 1), ?_, ?_, ?_⟩
  · rw [List.getElem_cons_drop, List.take_append_drop]
  · have ht : v.take i = w.take i := by
      apply List.ext_getElem?
      intro j
      rw [List.getElem?_take, List.getElem?_take]
      split
      · exact hj j (by omega)
      · rfl
    have hd : v.drop (i + 1) = w.drop (i + 1) := by
      apply List.ext_getElem?
      intro j
      rw [List.getElem?_drop, List.getElem?_drop]
      exact hj _ (by omega)
    rw [ht, hd, List.getElem_cons_drop, List.take_append_drop]
  · intro he
    apply hi
    rw [List.getElem?_eq_getElem h1, List.getElem?_eq_getElem h2, he]

/-! ## C180 -/

/-- C180 (part): seeds that differ in one word give different numbers. What is missing: further calls in a turn, and turns that differ in more than one respect (see the counterexamples). -/
theorem C180_one_word_partial (v w : List Word) (h : Spec.OneWord v w) : (call v).1 ≠ (call w).1 := by
  obtain ⟨l, a, b, r, rfl, rfl, hab⟩ := oneWord_split v w h
  exact fun he => hab (call_inj l r he)

example : Spec.OneWord [7#32, 9#32, 0#32, 4000000000#32] [7#32, 8#32, 0#32, 4000000000#32] := by
  refine ⟨rfl, 1, by decide, fun j hj => ?_⟩
  match j with
  | 0 => rfl
  | 1 => exact absurd rfl hj
  | j + 2 => rfl

/-- The numbers that the implementation in GCC gives for a seed of four words. -/
example : (call [7#32, 9#32, 0#32, 4000000000#32]).1 = 3999306825#32 ∧
    generate [7#32, 9#32, 0#32, 4000000000#32] 7 = [4104579957#32, 2390975366#32, 1191222589#32, 1018963829#32, 1222068228#32, 3802967308#32, 889418422#32] ∧
    Shuffle.next (Shuffle.start (wordOf [7#32, 9#32, 0#32, 4000000000#32])) = 742179471 := by decide +kernel

theorem ofNat_mod_inj (m n : Nat) (h : BitVec.ofNat 32 (m % 2 ^ 32) = BitVec.ofNat 32 (n % 2 ^ 32)) : m % 2 ^ 32 = n % 2 ^ 32 := by
  have := congrArg BitVec.toNat h
  simpa using this

theorem words_eq (combine : Nat → Nat → Nat) (sample : Nat) (i : List Nat) (time round : Nat) :
    turnWords combine sample i time round =
      [BitVec.ofNat 32 (Hashing.identityHash combine i % 2 ^ 32), BitVec.ofNat 32 (time % 2 ^ 32), BitVec.ofNat 32 (round % 2 ^ 32), BitVec.ofNat 32 (sample % 2 ^ 32)] := by
  rfl

theorem drawn_agent (combine : Nat → Nat → Nat) (sample : Nat) (i i' : List Nat) (time round : Nat) (h : drawn combine sample i time round = drawn combine sample i' time round) :
    Hashing.identityHash combine i % 2 ^ 32 = Hashing.identityHash combine i' % 2 ^ 32 :=
  ofNat_mod_inj _ _ (call_inj [] _ h)

theorem drawn_time (combine : Nat → Nat → Nat) (sample : Nat) (i : List Nat) (time time' round : Nat) (h : drawn combine sample i time round = drawn combine sample i time' round) :
    time % 2 ^ 32 = time' % 2 ^ 32 :=
  ofNat_mod_inj _ _ (call_inj [BitVec.ofNat 32 (Hashing.identityHash combine i % 2 ^ 32)] _ h)

theorem drawn_round (combine : Nat → Nat → Nat) (sample : Nat) (i : List Nat) (time round round' : Nat) (h : drawn combine sample i time round = drawn combine sample i time round') :
    round % 2 ^ 32 = round' % 2 ^ 32 :=
  ofNat_mod_inj _ _ (call_inj [BitVec.ofNat 32 (Hashing.identityHash combine i % 2 ^ 32), BitVec.ofNat 32 (time % 2 ^ 32)] _ h)

theorem drawn_sample (combine : Nat → Nat → Nat) (sample sample' : Nat) (i : List Nat) (time round : Nat) (h : drawn combine sample i time round = drawn combine sample' i time round) :
    sample % 2 ^ 32 = sample' % 2 ^ 32 :=
  ofNat_mod_inj _ _ (call_inj [BitVec.ofNat 32 (Hashing.identityHash combine i % 2 ^ 32), BitVec.ofNat 32 (time % 2 ^ 32), BitVec.ofNat 32 (round % 2 ^ 32)] _ h)

/-- C180 (part): below 2^32, an agent draws different numbers at different times, in different rounds and in different samples, if all else is the same. -/
theorem C180_turns_partial (combine : Nat → Nat → Nat) (sample sample' : Nat) (i : List Nat) (time time' round round' : Nat) (hs : sample < 2 ^ 32) (hs' : sample' < 2 ^ 32)
    (ht : time < 2 ^ 32) (ht' : time' < 2 ^ 32) (hr : round < 2 ^ 32) (hr' : round' < 2 ^ 32) :
    (time ≠ time' → drawn combine sample i time round ≠ drawn combine sample i time' round) ∧
    (round ≠ round' → drawn combine sample i time round ≠ drawn combine sample i time round') ∧
    (sample ≠ sample' → drawn combine sample i time round ≠ drawn combine sample' i time round) := by
  refine ⟨fun hn h => hn ?_, fun hn h => hn ?_, fun hn h => hn ?_⟩
  · have := drawn_time combine sample i time time' round h; rwa [Nat.mod_eq_of_lt ht, Nat.mod_eq_of_lt ht'] at this
  · have := drawn_round combine sample i time round round' h; rwa [Nat.mod_eq_of_lt hr, Nat.mod_eq_of_lt hr'] at this
  · have := drawn_sample combine sample sample' i time round h; rwa [Nat.mod_eq_of_lt hs, Nat.mod_eq_of_lt hs'] at this

/-- C180 (part): agents that are created by the same parent draw different numbers in the same round, with the `hash_combine` of the versions 1.56 to 1.80 of Boost. -/
theorem C180_siblings_partial (sample : Nat) (parent : List Nat) (m n time round : Nat) (hm : m < 2 ^ 32) (hn : n < 2 ^ 32) (hmn : m ≠ n) :
    drawn Seeds.combine64 sample (parent ++ [m]) time round ≠ drawn Seeds.combine64 sample (parent ++ [n]) time round :=
  fun h => hmn (Seeds.C177_siblings parent m n hm hn (drawn_agent _ _ _ _ _ _ h))

example : drawn Seeds.combine64 7 [3, 1] 10 0 ≠ drawn Seeds.combine64 7 [3, 2] 10 0 ∧ drawn Seeds.combine64 7 [3, 1] 10 0 ≠ drawn Seeds.combine64 7 [3, 1] 11 0 := by decide +kernel

/-- C180 (part): in every run that ends before the time 2^32, an agent draws different numbers in all the turns it has in rounds with the same number, in particular in the first rounds of all steps. -/
theorem C180_run_partial (combine : Nat → Nat → Nat) (sample : Nat) (identity : Nat → List Nat) (P : Program σ) (start end_ fuel k : Nat) (w w' : World σ) (ts : List Nat)
    (hu : (w.agents.map (·.id)).Nodup) (hl : w.log = []) (he : end_ ≤ 2 ^ 32) (h : runLoop P end_ fuel k start w = some (.ok (w', ts))) (a round : Nat) :
    ((w'.log.filter fun e => decide (e.agent = a ∧ e.round = round)).map fun e => drawn combine sample (identity e.agent) e.time e.round).Nodup := by
  obtain ⟨l, h1, h2, h3⟩ := Seeds.runLoop_turns P end_ fuel k start w w' ts hu h
  rw [h1, hl, List.nil_append, List.nodup_iff_pairwise_ne, List.pairwise_map]
  refine List.Pairwise.imp_of_mem (fun {e f} he' hf' hef hd => hef ?_) (h2.sublist List.filter_sublist)
  obtain ⟨m1, p1⟩ := List.mem_filter.mp he'
  obtain ⟨m2, p2⟩ := List.mem_filter.mp hf'
  simp only [decide_eq_true_eq] at p1 p2
  rw [p1.1, p1.2, p2.1, p2.2] at hd
  have := drawn_time combine sample (identity a) e.time f.time round hd
  have t1 := h3 e m1
  have t2 := h3 f m2
  rw [Nat.mod_eq_of_lt (by omega), Nat.mod_eq_of_lt (by omega)] at this
  simp only [Seeds.Spec.turn, p1.1, p2.1, p1.2, p2.2, this]

/-- Non-vacuity: the first agent of `Seeds.twice` has a turn in the first round of each of three steps. -/
example : ∃ w', runLoop Seeds.twice 3 9 9 0 pair = some (.ok (w', [0, 1, 2])) ∧ (w'.log.filter fun e => decide (e.agent = 0 ∧ e.round = 0)).length = 3 :=
  ⟨_, rfl, rfl⟩

/-- C180 fails: all calls of `generate` in a turn give the same number. -/
theorem C180_counterexample_calls (v : List Word) (n i j : Nat) (hi : i < n) (hj : j < n) : (calls n v)[i]? = (calls n v)[j]? ∧ (calls n v)[i]? = some (call v).1 := by
  have key : ∀ (n i : Nat), i < n → (calls n v)[i]? = some (call v).1 := by
    intro n
    induction n with
    | zero => intro i hi; omega
    | succ n ih =>
      intro i hi
      cases i with
      | zero => rfl
      | succ i => exact ih i (by omega)
  exact ⟨by rw [key n i hi, key n j hj], key n i hi⟩

example : calls 3 [7#32, 9#32, 0#32, 4000000000#32] = [3999306825#32, 3999306825#32, 3999306825#32] := by decide +kernel

/-- C180 fails for turns that differ in two respects: whatever number is drawn in a turn, the same agent draws it in any other round at some time. -/
theorem C180_counterexample_rounds (combine : Nat → Nat → Nat) (sample : Nat) (i : List Nat) (time round round' : Nat) :
    ∃ time' < 2 ^ 32, drawn combine sample i time' round' = drawn combine sample i time round := by
  obtain ⟨b, hb⟩ := call_surj [BitVec.ofNat 32 (Hashing.identityHash combine i % 2 ^ 32)] [BitVec.ofNat 32 (round % 2 ^ 32), BitVec.ofNat 32 (sample % 2 ^ 32)]
    [BitVec.ofNat 32 (Hashing.identityHash combine i % 2 ^ 32)] [BitVec.ofNat 32 (round' % 2 ^ 32), BitVec.ofNat 32 (sample % 2 ^ 32)] (BitVec.ofNat 32 (time % 2 ^ 32)) rfl rfl
  refine ⟨b.toNat, b.isLt, ?_⟩
  have e : BitVec.ofNat 32 (b.toNat % 2 ^ 32) = b := by rw [Nat.mod_eq_of_lt b.isLt]; simp
  simp only [drawn, words_eq, e]
  exact hb

/-- C180 fails for two agents at different times: whatever number an agent draws, any other agent draws it in the same round of some step. -/
theorem C180_counterexample_agents (combine : Nat → Nat → Nat) (sample : Nat) (i i' : List Nat) (time round : Nat) :
    ∃ time' < 2 ^ 32, drawn combine sample i' time' round = drawn combine sample i time round := by
  obtain ⟨b, hb⟩ := call_surj [BitVec.ofNat 32 (Hashing.identityHash combine i % 2 ^ 32)] [BitVec.ofNat 32 (round % 2 ^ 32), BitVec.ofNat 32 (sample % 2 ^ 32)]
    [BitVec.ofNat 32 (Hashing.identityHash combine i' % 2 ^ 32)] [BitVec.ofNat 32 (round % 2 ^ 32), BitVec.ofNat 32 (sample % 2 ^ 32)] (BitVec.ofNat 32 (time % 2 ^ 32)) rfl rfl
  refine ⟨b.toNat, b.isLt, ?_⟩
  have e : BitVec.ofNat 32 (b.toNat % 2 ^ 32) = b := by rw [Nat.mod_eq_of_lt b.isLt]; simp
  simp only [drawn, words_eq, e]
  exact hb

theorem construct_ok (l : List Int) (h : ∀ i ∈ l, 0 ≤ i ∧ i < 2 ^ 32) : construct l = .ok (l.map fun i => BitVec.ofNat 32 i.toNat) := by
  induction l with
  | nil => rfl
  | cons i l ih =>
    rw [construct, if_pos (h i List.mem_cons_self), ih fun j hj => h j (List.mem_cons_of_mem _ hj)]
    rfl

theorem construct_throws (l : List Int) (h : ∃ i ∈ l, ¬ (0 ≤ i ∧ i < 2 ^ 32)) : construct l = .throws := by
  induction l with
  | nil => obtain ⟨i, hi, _⟩ := h; exact absurd hi List.not_mem_nil
  | cons i l ih =>
    rw [construct]
    split
    · rename_i hi
      obtain ⟨j, hj, hn⟩ := h
      rcases List.mem_cons.mp hj with rfl | hj
      · exact absurd hi hn
      · rw [ih ⟨j, hj, hn⟩]; rfl
    · rfl

/-- A seed that is made in Python keeps the numbers of the list, which must be words of 32 bits; otherwise there is an exception. -/
theorem C180_construct (l : List Int) :
    ((∀ i ∈ l, 0 ≤ i ∧ i < 2 ^ 32) → ∃ v, construct l = .ok v ∧ v.map (fun w => (w.toNat : Int)) = l) ∧
    ((∃ i ∈ l, ¬ (0 ≤ i ∧ i < 2 ^ 32)) → construct l = .throws) := by
  refine ⟨fun h => ⟨_, construct_ok l h, ?_⟩, construct_throws l⟩
  rw [List.map_map]
  induction l with
  | nil => rfl
  | cons i l ih =>
    have hi := h i List.mem_cons_self
    rw [List.map_cons, ih fun j hj => h j (List.mem_cons_of_mem _ hj)]
    congr 1
    simp only [Function.comp, BitVec.toNat_ofNat]
    omega

example : construct [7, 9, 0, 4000000000] = .ok [7#32, 9#32, 0#32, 4000000000#32] ∧ construct [1, -1] = .throws ∧ construct [2 ^ 32] = .throws := ⟨rfl, rfl, rfl⟩

end Esl.Draws
