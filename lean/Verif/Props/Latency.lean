import Verif.Model.Latency
import Verif.Lemmas.Exchange
import Verif.Props.Messages

/-! # Random latencies in the turns of an exchange (C181) -/

namespace Esl.Latency
open Esl.Exchange

theorem handle_arrival (d t : Nat) (x x' : Exchange) (e : Event) (outs : List Out) (h : handle (fun _ => d) x t e = .ok (x', outs)) :
    ∀ m ∈ outs, Spec.arrival m = u64 (t + d) := by
  intro m hm
  cases e with
  | logon s supply => simp only [handle, Outcome.ok.injEq, Prod.mk.injEq] at h; rw [← h.2] at hm; exact absurd hm List.not_mem_nil
  | logout s => simp only [handle, Outcome.ok.injEq, Prod.mk.injEq] at h; rw [← h.2] at hm; exact absurd hm List.not_mem_nil
  | request s depth type is =>
    simp only [handle] at h
    cases hr : requestAll s depth t type is x.subscriptions with
    | ok subs =>
      rw [hr] at h
      simp only [Outcome.bind_ok, Outcome.ok.injEq, Prod.mk.injEq] at h
      rw [← h.2] at hm; exact absurd hm List.not_mem_nil
    | throws => rw [hr] at h; cases h
    | ub => rw [hr] at h; cases h
  | cancel symbol id => simp only [handle, Outcome.ok.injEq, Prod.mk.injEq] at h; rw [← h.2] at hm; exact absurd hm List.not_mem_nil
  | order sender o =>
    simp only [handle, insertOrder] at h
    split at h
    · cases h
    · cases h
      have := reportLoop_arrival _ _ _ _ _ _ _ _ m hm
      by_cases hi : Spec.isReport m
      · exact this.1 hi
      · exact this.2 hi

theorem runEvents_arrival (d t : Nat) (es : List Event) (x x' : Exchange) (outs : List Out)
    (h : runEvents (fun _ _ => d) x (es.map fun e => (t, e)) = .ok (x', outs)) : ∀ m ∈ outs, Spec.arrival m = u64 (t + d) := by
  induction es generalizing x outs with
  | nil =>
    simp only [List.map_nil, runEvents, Outcome.ok.injEq, Prod.mk.injEq] at h
    rw [← h.2]
    intro m hm
    exact absurd hm List.not_mem_nil
  | cons e es ih =>
    rw [List.map_cons] at h
    obtain ⟨x1, o1, o2, h1, h2, rfl⟩ := runEvents_cons _ x t e _ x' outs h
    intro m hm
    rcases List.mem_append.mp hm with hm | hm
    · exact handle_arrival d t x x1 e o1 h1 m hm
    · exact ih x1 o2 h2 m hm

theorem turn_ok (gamma : List Draws.Word → Rat) (rate shift : Rat) (self : Nat) (seed : List Draws.Word) (x x' : Exchange) (t : Nat) (es : List Event) (outs : List Out)
    (h : turn gamma rate shift self seed x t es = .ok (x', outs)) :
    ∃ d, sample gamma rate shift self self seed = .ok d ∧ runEvents (fun _ _ => d) x (es.map fun e => (t, e)) = .ok (x', outs) := by
  unfold turn at h
  cases hs : sample gamma rate shift self self seed with
  | ok d =>
    refine ⟨d, rfl, ?_⟩
    rw [hs] at h
    simp only [Outcome.bind_ok] at h
    have : ∀ r, sample gamma rate shift self r seed = .ok d := fun r => hs
    simpa only [this] using h
  | throws => rw [hs] at h; cases h
  | ub => rw [hs] at h; cases h

/-! ## C181 -/

/-- C181 fails: all messages that an exchange with a shifted gamma latency sends in a turn arrive at the same time, whoever they are for and whatever order they are about. The latency is drawn once for each turn, in effect. -/
theorem C181_counterexample_same (gamma : List Draws.Word → Rat) (rate shift : Rat) (self : Nat) (seed : List Draws.Word) (x x' : Exchange) (t : Nat) (es : List Event) (outs : List Out)
    (h : turn gamma rate shift self seed x t es = .ok (x', outs)) (m m' : Out) (hm : m ∈ outs) (hm' : m' ∈ outs) : Spec.arrival m = Spec.arrival m' := by
  obtain ⟨d, _, h2⟩ := turn_ok gamma rate shift self seed x x' t es outs h
  rw [runEvents_arrival d t es x x' outs h2 m hm, runEvents_arrival d t es x x' outs h2 m' hm']

/-- C181 fails: the latency does not depend on who sends to whom. -/
theorem C181_counterexample_pairs (gamma : List Draws.Word → Rat) (rate shift : Rat) (a b c d : Nat) (seed : List Draws.Word) :
    sample gamma rate shift a b seed = sample gamma rate shift c d seed := rfl

/-- C181 (part): each message that an exchange sends in a turn arrives no earlier than the shift after it was sent. The parameters are a positive rate and a shift that is not negative; samples of the gamma distribution are
not negative, and times do not exceed what a `time_point` can hold. What is missing: latencies of their own for the messages of a turn. -/
theorem C181_at_least_shift_partial (gamma : List Draws.Word → Rat) (hg : ∀ v, 0 ≤ gamma v) (rate shift : Rat) (hr : 0 < rate) (hs : 0 ≤ shift) (self : Nat) (seed : List Draws.Word) (x x' : Exchange) (t : Nat)
    (es : List Event) (outs : List Out) (h : turn gamma rate shift self seed x t es = .ok (x', outs))
    (hb : ∀ v, (t : Rat) + shift + rate * gamma v < 2 ^ 64) (m : Out) (hm : m ∈ outs) : t + shift.floor.toNat ≤ Spec.arrival m := by
  obtain ⟨d, h1, h2⟩ := turn_ok gamma rate shift self seed x x' t es outs h
  rw [runEvents_arrival d t es x x' outs h2 m hm]
  have hb' := hb (Draws.generate seed 624)
  have ht : (0 : Rat) ≤ t := Nat.cast_nonneg t
  obtain ⟨d', e1, e2⟩ := Messages.C128_at_least_shift_partial rate shift (gamma (Draws.generate seed 624)) hr hs (hg _) (by unfold Messages.gammaLatency; linarith)
  unfold sample at h1
  rw [h1] at e1
  cases e1
  have hd : (d : Rat) ≤ Messages.gammaLatency rate shift (gamma (Draws.generate seed 624)) := by
    unfold Messages.toDuration at h1
    split at h1
    · cases h1
    · simp only [Outcome.ok.injEq] at h1
      rw [← h1]
      have h0 : 0 ≤ Messages.gammaLatency rate shift (gamma (Draws.generate seed 624)) := by
        unfold Messages.gammaLatency
        have : 0 ≤ rate * gamma (Draws.generate seed 624) := mul_nonneg (le_of_lt hr) (hg _)
        linarith
      have hf : 0 ≤ (Messages.gammaLatency rate shift (gamma (Draws.generate seed 624))).floor := Rat.le_floor_iff.mpr (by exact_mod_cast h0)
      have := Rat.floor_le (Messages.gammaLatency rate shift (gamma (Draws.generate seed 624)))
      have hc : (((Messages.gammaLatency rate shift (gamma (Draws.generate seed 624))).floor.toNat : Nat) : Rat) = (((Messages.gammaLatency rate shift (gamma (Draws.generate seed 624))).floor : Int) : Rat) := by
        rw [← Int.cast_natCast, Int.toNat_of_nonneg hf]
      rw [hc]
      exact this
  have hlt : t + d < 2 ^ 64 := by
    have : (t : Rat) + d < 2 ^ 64 := by
      unfold Messages.gammaLatency at hd
      linarith
    exact_mod_cast this
  rw [u64, Nat.mod_eq_of_lt hlt]
  omega

/-- Agents 1 and 2 send orders that match; the three reports arrive at the same time. -/
example : ∃ x' outs, turn (fun _ => 3) 1 2 9 [7#32] (create [7] [(7, Book.empty)]) 10
      [.order 1 ⟨.goodUntilCancelled, .sell, 7, 1, 100, 5⟩, .order 2 ⟨.goodUntilCancelled, .buy, 7, 2, 100, 2⟩] = .ok (x', outs) ∧
    outs.map (fun m => (Spec.addressee m, Spec.arrival m)) = [(1, 15), (2, 15), (1, 15)] := by
  have hs : ∀ a b, sample (fun _ => 3) 1 2 a b [7#32] = .ok 5 := by
    intro a b
    unfold sample
    decide +kernel
  unfold turn
  simp only [hs, Outcome.bind_ok]
  exact ⟨_, _, rfl, by decide +kernel⟩

end Esl.Latency
