import Verif.Model.Shuffle
import Verif.Props.Communicator
import Mathlib.Data.Fintype.Perm
import Mathlib.Data.Fintype.Card
import Mathlib.Data.Nat.Factorial.Basic
import Mathlib.Tactic.Ring
/-! # C178: the random order of messages with equal priority -/
namespace Esl.Shuffle
open Esl.Comm
variable {σ : Type}

/-! ## Specification -/

/-- The agent has one callback for each kind of message that it handles. -/
def Spec.OneEach (regs : List (Registration σ)) (t : Table σ) : Prop :=
  registerAll .empty regs = .ok t ∧ (regs.map (·.1)).Nodup ∧ ∀ r ∈ regs, -128 ≤ r.2.1

/-- The messages that are due and are handled at priority `p`, last first. -/
def Spec.group (regs : List (Registration σ)) (now : Nat) (inbox : Inbox) (p : Int) : List Msg :=
  ((Comm.Spec.due now inbox).filter fun m => regs.any fun r => r.1 == m.type && r.2.1 == p).reverse

/-- The messages that were handled at priority `p`, in the order in which it happened. -/
def Spec.handledAt (calls : List (Msg × Int × Nat)) (p : Int) : List Msg := (calls.filter fun c => decide (c.2.1 = p)).map (·.1)

/-! ## Lemmas -/

theorem arranged_perm (π : List Nat) (l : List Msg) (h : π.Perm (List.range l.length)) : (π.filterMap fun i => l[i]?).Perm l := by
  refine (h.filterMap _).trans ?_
  have : ∀ (l k : List Msg), ((List.range' k.length l.length).filterMap fun i => (k ++ l)[i]?) = l := by
    intro l
    induction l with
    | nil => intro k; rfl
    | cons a l ih =>
      intro k
      rw [List.length_cons, List.range'_succ, List.filterMap_cons]
      have e : (k ++ a :: l)[k.length]? = some a := by simp
      rw [e]
      have := ih (k ++ [a])
      simp only [List.length_append, List.length_cons, List.length_nil, Nat.zero_add, List.append_assoc, List.singleton_append] at this
      rw [this]
  have := this l []
  rw [List.range_eq_range']
  simpa using List.Perm.of_eq this

theorem shuffle_perm (lib : Library) (hl : lib.Lawful) (seed : List Nat) (l : List Msg) : (shuffle lib seed l).Perm l :=
  arranged_perm _ l (hl _ _)

theorem arranged_get (l : List Msg) : ∀ (π : List Nat), (∀ i ∈ π, i < l.length) → ∀ (j : Nat), (π.filterMap fun i => l[i]?)[j]? = (π[j]?).bind fun (i : Nat) => l[i]?
  | [], _, j => by simp
  | i :: π, h, j => by
    have e : l[i]? = some (l[i]'(h i (by simp))) := List.getElem?_eq_getElem (h i (by simp))
    rw [List.filterMap_cons, e]
    cases j with
    | zero => simp [e]
    | succ j => simpa using arranged_get l π (fun i hi => h i (by simp [hi])) j

theorem order_filter (sh : List Msg → List Msg) (hsh : ∀ l, (sh l).Perm l) (key : Msg → Int) (q : Int) (rs : List (Int × Msg))
    (hp : ∀ e ∈ rs, e.1 = key e.2) (hs : rs.Pairwise fun x y => y.1 ≤ x.1) :
    (order sh rs).filter (fun m => decide (key m = q)) = sh ((rs.filter fun e => decide (e.1 = q)).map (·.2)) := by
  have hnil : sh [] = [] := List.perm_nil.1 (hsh [])
  induction rs using order_induct with
  | nil => simp [order_nil, hnil]
  | cons p m rs ih =>
    rw [order_cons, List.filter_append]
    have e := takeEqual_append p rs
    have hne : ∀ (l : List (Int × Msg)) y ys, (takeEqual p l).2 = y :: ys → y.1 ≠ p := by
      intro l
      induction l with
      | nil => intro y ys h; simp [takeEqual] at h
      | cons x l ih =>
        intro y ys h
        obtain ⟨a, b⟩ := x
        unfold takeEqual at h
        split at h
        · exact ih y ys h
        · rename_i hne
          simp at h
          rw [← h.1]; exact hne
    rw [List.pairwise_cons] at hs
    have hp' : ∀ e ∈ rs, e.1 = key e.2 := fun e he => hp e (List.mem_cons_of_mem _ he)
    have hgrp : ∀ x ∈ sh (m :: (takeEqual p rs).1), key x = p := by
      intro x hx
      rcases List.mem_cons.1 ((hsh _).mem_iff.1 hx) with rfl | hx
      · exact (hp (p, x) (List.mem_cons_self ..)).symm
      · exact (hp' (p, x) (by rw [e]; simp [hx])).symm
    have hrest : ∀ y ∈ (takeEqual p rs).2, y ∈ rs := fun y hy => by rw [e]; simp [hy]
    have hpw : (takeEqual p rs).2.Pairwise fun x y => y.1 ≤ x.1 := by
      have := hs.2
      rw [e] at this
      exact (List.pairwise_append.1 this).2.1
    have hlt : ∀ y ∈ (takeEqual p rs).2, y.1 < p := by
      intro y hy
      cases hc : (takeEqual p rs).2 with
      | nil => rw [hc] at hy; simp at hy
      | cons z zs =>
        have hz := hne rs z zs hc
        have hz2 := hs.1 z (hrest z (by rw [hc]; simp))
        rw [hc] at hy hpw
        rcases List.mem_cons.1 hy with rfl | hy
        · simp at hz2; omega
        · have := (List.pairwise_cons.1 hpw).1 y hy
          simp at hz2; omega
    have ih' := ih (fun e he => hp' e (hrest e he)) hpw
    rw [ih']
    have hr : rs.filter (fun e => decide (e.1 = q)) = ((takeEqual p rs).1.map fun m => (p, m)).filter (fun e => decide (e.1 = q)) ++ (takeEqual p rs).2.filter fun e => decide (e.1 = q) := by
      rw [← List.filter_append, ← e]
    by_cases hq : p = q
    · subst hq
      have h1 : (sh (m :: (takeEqual p rs).1)).filter (fun m => decide (key m = p)) = sh (m :: (takeEqual p rs).1) := by
        rw [List.filter_eq_self]
        intro x hx; simpa using hgrp x hx
      have h2 : (takeEqual p rs).2.filter (fun e => decide (e.1 = p)) = [] := by
        rw [List.filter_eq_nil_iff]
        intro y hy; have := hlt y hy; simp; omega
      rw [h1, h2, List.filter_cons_of_pos (by simp), hr, h2]
      simp [hnil, List.filter_map, Function.comp_def]
    · have h1 : (sh (m :: (takeEqual p rs).1)).filter (fun m => decide (key m = q)) = [] := by
        rw [List.filter_eq_nil_iff]
        intro x hx; rw [hgrp x hx]; simpa using hq
      have h2 : ((takeEqual p rs).1.map fun m => (p, m)).filter (fun e => decide (e.1 = q)) = [] := by
        rw [List.filter_eq_nil_iff]
        intro x hx
        obtain ⟨y, _, rfl⟩ := List.mem_map.1 hx
        simpa using hq
      rw [h1, List.filter_cons_of_neg (by simpa using hq), hr, h2]
      simp

theorem handlers_one (regs : List (Registration σ)) (t : Table σ) (h : Spec.OneEach regs t) (c : Nat) :
    (t.handlers c = [] ∧ ∀ r ∈ regs, r.1 ≠ c) ∨ ∃ p f, t.handlers c = [(p, f)] ∧ -128 ≤ p ∧ ∀ q, (regs.any fun r => r.1 == c && r.2.1 == q) = decide (p = q) := by
  obtain ⟨h1, h2, h3⟩ := h
  have hp := registerAll_perm regs _ _ h1 c
  simp only [Table.empty, List.map_nil, List.nil_append] at hp
  by_cases hc : ∃ r ∈ regs, r.1 = c
  · right
    obtain ⟨r, hr, rfl⟩ := hc
    have hf : (regs.filter fun x => x.1 == r.1) = [r] := by
      clear hp h1 h3
      induction regs with
      | nil => simp at hr
      | cons x regs ih =>
        rw [List.map_cons, List.nodup_cons] at h2
        rcases List.mem_cons.1 hr with rfl | hr'
        · rw [List.filter_cons_of_pos (by simp)]
          congr 1
          rw [List.filter_eq_nil_iff]
          intro y hy hye
          exact h2.1 (List.mem_map.2 ⟨y, hy, by simpa using hye⟩)
        · have : x.1 ≠ r.1 := fun he => h2.1 (List.mem_map.2 ⟨r, hr', he.symm⟩)
          rw [List.filter_cons_of_neg (by simpa using this)]
          exact ih h2.2 hr'
    unfold Comm.Spec.registeredFor at hp
    rw [hf] at hp
    simp only [List.map_cons, List.map_nil] at hp
    have hp := List.perm_singleton.1 hp
    rcases hh : t.handlers r.1 with _ | ⟨⟨p, f⟩, _ | ⟨y, ys⟩⟩
    · rw [hh] at hp; simp at hp
    · rw [hh] at hp; simp at hp
      refine ⟨p, f, rfl, by rw [hp.1]; exact h3 r hr, ?_⟩
      intro q
      rw [Bool.eq_iff_iff]
      simp only [List.any_eq_true, Bool.and_eq_true, beq_iff_eq, decide_eq_true_eq]
      constructor
      · rintro ⟨x, hx, hx1, hx2⟩
        have : x ∈ regs.filter fun x => x.1 == r.1 := List.mem_filter.2 ⟨hx, by simpa using hx1⟩
        rw [hf, List.mem_singleton] at this
        subst this
        rw [hp.1]; exact hx2
      · intro hq
        exact ⟨r, hr, rfl, by rw [← hp.1]; exact hq⟩
    · rw [hh] at hp; simp at hp
  · left
    have hf : (regs.filter fun x => x.1 == c) = [] := by
      rw [List.filter_eq_nil_iff]
      intro y hy hye
      exact hc ⟨y, hy, by simpa using hye⟩
    unfold Comm.Spec.registeredFor at hp
    rw [hf] at hp
    simp only [List.map_nil] at hp
    refine ⟨by simpa using hp, fun r hr he => hc ⟨r, hr, he⟩⟩

theorem highest_one (p : Int) (f : Entry σ) (h : -128 ≤ p) : highest [(p, f)] = p := by
  simp [highest]; omega

/-- The messages that were handled at a priority are the shuffled group. -/
theorem handledAt_eq (sh : List Msg → List Msg) (hsh : ∀ l, (sh l).Perm l) (regs : List (Registration σ)) (t : Table σ) (h : Spec.OneEach regs t) (step : Step) (inbox : Inbox)
    (hin : Comm.Spec.InboxSorted inbox) (a : σ) (p : Int) :
    Spec.handledAt (Comm.processMessages t.handlers sh step inbox ⟨a, [], []⟩).1.calls p = sh (Spec.group regs step.lower inbox p) := by
  unfold Comm.processMessages
  rw [processAll_calls, List.nil_append]
  have hk : ∀ e ∈ collect t.handlers step.lower inbox [], e.1 = highest (t.handlers e.2.type) := by
    intro e he
    have := (collect_perm t.handlers step.lower inbox []).mem_iff.1 he
    simp [dueList] at this
    obtain ⟨a, b, h, rfl⟩ := this
    rfl
  have hne : ∀ m ∈ handled t.handlers sh step.lower inbox, t.handlers m.type ≠ [] := by
    intro m hm
    have := (handled_perm t.handlers sh hsh step.lower inbox).mem_iff.1 hm
    simp [dueList] at this
    obtain ⟨_, h2⟩ := this
    exact h2
  have h1 : ∀ l : List Msg, (∀ m ∈ l, t.handlers m.type ≠ []) →
      Spec.handledAt (l.flatMap (callsOf t.handlers)) p = l.filter fun m => decide (highest (t.handlers m.type) = p) := by
    intro l
    induction l with
    | nil => intro _; rfl
    | cons m l ih =>
      intro hl
      have ih := ih fun m hm => hl m (by simp [hm])
      unfold Spec.handledAt at ih ⊢
      rw [List.flatMap_cons, List.filter_append, List.map_append, ih]
      rcases handlers_one regs t h m.type with ⟨he, _⟩ | ⟨q, f, hq, hb, _⟩
      · exact absurd he (hl m (by simp))
      · rw [List.filter_cons, hq, highest_one q f hb]
        unfold callsOf
        rw [hq]
        by_cases hqp : q = p <;> simp [hqp]
  rw [h1 _ hne]
  unfold handled
  rw [order_filter sh hsh (fun m => highest (t.handlers m.type)) p]
  · congr 1
    unfold Spec.group
    rw [List.filter_reverse, List.map_reverse]
    congr 1
    rw [collect_filter t.handlers step.lower p inbox [] List.Pairwise.nil]
    unfold dueList Comm.Spec.due
    rw [takeWhile_eq_filter_of_sorted _ _ hin]
    simp only [List.filter_nil, List.nil_append, List.filter_map, List.map_map, List.filter_filter, Function.comp_def]
    congr 1
    apply List.filter_congr
    intro e _
    rcases handlers_one regs t h e.2.type with ⟨he, hr⟩ | ⟨q, f, hq, hb, hany⟩
    · rw [he]
      have : (regs.any fun r => r.1 == e.2.type && r.2.1 == p) = false := by
        rw [List.any_eq_false]
        intro r hr'; have := hr r hr'; simp [this]
      rw [this]; simp
    · rw [hany, hq, highest_one q f hb]
      simp
  · intro e he
    exact hk e (List.mem_reverse.1 he)
  · rw [List.pairwise_reverse]
    exact collect_sorted t.handlers step.lower inbox [] List.Pairwise.nil

/-! ## C178 -/

/-- **C178 (partial).** Whatever the seed, the messages of a priority that are due are handled once each. Missing: that the orders of the messages of
different priorities have nothing to do with each other, and that all orders are possible; see the counterexamples. -/
theorem C178_random_partial (lib : Library) (hl : lib.Lawful) (seed : List Nat) (regs : List (Registration σ)) (t : Table σ) (h : Spec.OneEach regs t) (step : Step) (inbox : Inbox)
    (hin : Comm.Spec.InboxSorted inbox) (a : σ) (p : Int) :
    (Spec.handledAt (processMessages lib seed t.handlers step inbox ⟨a, [], []⟩).1.calls p).Perm (Spec.group regs step.lower inbox p) := by
  unfold processMessages
  rw [handledAt_eq _ (shuffle_perm lib hl seed) regs t h step inbox hin a p]
  exact shuffle_perm lib hl seed _

/-- **C178 (negation).** The generator is made anew from the same seed for each priority: if as many messages are handled at the priority `p` as at the priority `q`, then the orders are the same. The message that
comes first among those of `p` has the place among them that the message that comes first among those of `q` has, and so on. -/
theorem C178_counterexample_groups (lib : Library) (hl : lib.Lawful) (seed : List Nat) (regs : List (Registration σ)) (t : Table σ) (h : Spec.OneEach regs t) (step : Step) (inbox : Inbox)
    (hin : Comm.Spec.InboxSorted inbox) (a : σ) (p q : Int) (hpq : (Spec.group regs step.lower inbox p).length = (Spec.group regs step.lower inbox q).length) :
    ∃ place : Nat → Nat, (∀ i < (Spec.group regs step.lower inbox p).length, place i < (Spec.group regs step.lower inbox p).length) ∧
      ∀ i < (Spec.group regs step.lower inbox p).length,
        (Spec.handledAt (processMessages lib seed t.handlers step inbox ⟨a, [], []⟩).1.calls p)[i]? = (Spec.group regs step.lower inbox p)[place i]? ∧
        (Spec.handledAt (processMessages lib seed t.handlers step inbox ⟨a, [], []⟩).1.calls q)[i]? = (Spec.group regs step.lower inbox q)[place i]? := by
  unfold processMessages
  rw [handledAt_eq _ (shuffle_perm lib hl seed) regs t h step inbox hin a p, handledAt_eq _ (shuffle_perm lib hl seed) regs t h step inbox hin a q]
  generalize Spec.group regs step.lower inbox p = A at hpq ⊢
  generalize Spec.group regs step.lower inbox q = B at hpq ⊢
  unfold shuffle
  rw [← hpq]
  have hπ := hl (start (lib.word seed)) A.length
  generalize lib.arrange (start (lib.word seed)) A.length = π at hπ
  have hlen : π.length = A.length := by simpa using hπ.length_eq
  have hmem : ∀ i ∈ π, i < A.length := fun i hi => by simpa using hπ.mem_iff.1 hi
  have hget : ∀ i < A.length, π[i]? = some (π.getD i 0) := by
    intro i hi
    rw [List.getD_eq_getElem?_getD, List.getElem?_eq_getElem (by omega)]
    rfl
  refine ⟨fun i => π.getD i 0, ?_, ?_⟩
  · intro i hi
    exact hmem _ (List.mem_of_getElem? (hget i hi))
  · intro i hi
    rw [arranged_get A π hmem, arranged_get B π (by rw [← hpq]; exact hmem), hget i hi]
    exact ⟨rfl, rfl⟩

theorem start_lt (w : Nat) : start w < modulus := by
  unfold start modulus
  split <;> omega

/-- The arrangements of a list. -/
def listed (l : List Msg) (π : Equiv.Perm (Fin l.length)) : List Msg := List.ofFn fun i => l.get (π i)

theorem listed_perm (l : List Msg) (π : Equiv.Perm (Fin l.length)) : (listed l π).Perm l := by
  have h : (listed l π) = (List.ofFn π).map l.get := by simp [listed, List.map_ofFn, Function.comp_def]
  have h2 : (List.ofFn π).Perm (List.finRange l.length) := by
    rw [List.perm_ext_iff_of_nodup (List.nodup_ofFn.2 π.injective) (List.nodup_finRange _)]
    intro x
    simp only [List.mem_ofFn, List.mem_finRange, iff_true]
    exact π.surjective x
  rw [h]
  refine (h2.map _).trans ?_
  rw [List.map_get_finRange]

theorem listed_injective (l : List Msg) (hn : l.Nodup) : Function.Injective (listed l) := by
  intro π ρ h
  have := List.ofFn_injective h
  ext i
  have h3 := congrFun this i
  exact congrArg Fin.val ((List.nodup_iff_injective_get.1 hn) h3)

/-- **C178 (negation).** Not all orders are possible. When 13 or more messages of one priority are due, there is an order in which they are handled with no seed at all, whatever the standard library: the generator has fewer than 2^31
states. -/
theorem C178_counterexample_orders (lib : Library) (hl : lib.Lawful) (regs : List (Registration σ)) (t : Table σ) (h : Spec.OneEach regs t) (step : Step) (inbox : Inbox)
    (hin : Comm.Spec.InboxSorted inbox) (p : Int) (hd : (Spec.group regs step.lower inbox p).Nodup) (hn : 13 ≤ (Spec.group regs step.lower inbox p).length) :
    ∃ order : List Msg, order.Perm (Spec.group regs step.lower inbox p) ∧
      ∀ (seed : List Nat) (a : σ), Spec.handledAt (processMessages lib seed t.handlers step inbox ⟨a, [], []⟩).1.calls p ≠ order := by
  by_contra hc
  push Not at hc
  have key : ∀ π : Equiv.Perm (Fin (Spec.group regs step.lower inbox p).length), ∃ s : Fin modulus,
      (lib.arrange s.1 (Spec.group regs step.lower inbox p).length).filterMap (fun i => (Spec.group regs step.lower inbox p)[i]?) = listed _ π := by
    intro π
    obtain ⟨seed, a, hs⟩ := hc (listed _ π) (listed_perm _ π)
    unfold processMessages at hs
    rw [handledAt_eq _ (shuffle_perm lib hl seed) regs t h step inbox hin a p] at hs
    exact ⟨⟨start (lib.word seed), start_lt _⟩, hs⟩
  choose f hf using key
  have hinj : Function.Injective f := by
    intro π ρ he
    apply listed_injective _ hd
    rw [← hf π, ← hf ρ, he]
  have hcard := Fintype.card_le_of_injective f hinj
  rw [Fintype.card_perm, Fintype.card_fin, Fintype.card_fin] at hcard
  have h13 : Nat.factorial 13 ≤ Nat.factorial (Spec.group regs step.lower inbox p).length := Nat.factorial_le hn
  have e13 : Nat.factorial 13 = 6227020800 := by decide +kernel
  unfold modulus at hcard
  omega

/-- **C178 (partial).** Whatever the seed, the generator never reaches the state from which it would draw zeros only, and never draws the same number twice in a row. -/
theorem C178_generator_partial (w n : Nat) : 0 < next^[n] (start w) ∧ next^[n] (start w) < modulus ∧ next^[n + 1] (start w) ≠ next^[n] (start w) := by
  have hm : Nat.Coprime modulus multiplier := by decide +kernel
  have hm' : Nat.Coprime modulus 48270 := by decide +kernel
  have hstep : ∀ x, 0 < x → x < modulus → 0 < next x ∧ next x < modulus ∧ next x ≠ x := by
    intro x h0 h1
    have hx : ¬ modulus ∣ x := fun hd => absurd (Nat.le_of_dvd h0 hd) (by omega)
    refine ⟨?_, Nat.mod_lt _ (by decide), ?_⟩
    · rw [Nat.pos_iff_ne_zero]
      intro he
      exact hx (hm.dvd_of_dvd_mul_right (Nat.dvd_of_mod_eq_zero he))
    · intro he
      have e1 : x * multiplier = modulus * (x * multiplier / modulus) + x := by
        conv_lhs => rw [← Nat.div_add_mod (x * multiplier) modulus]
        unfold next at he
        rw [he]
      have e2 : modulus ∣ x * 48270 := ⟨x * multiplier / modulus, by
        have : x * multiplier = x * 48270 + x := by unfold multiplier; ring
        omega⟩
      exact hx (hm'.dvd_of_dvd_mul_right e2)
  have hs : 0 < start w ∧ start w < modulus := by
    refine ⟨?_, start_lt w⟩
    unfold start
    split <;> omega
  have hall : ∀ n, 0 < next^[n] (start w) ∧ next^[n] (start w) < modulus := by
    intro n
    induction n with
    | zero => exact hs
    | succ n ih =>
      rw [Function.iterate_succ_apply']
      exact ⟨(hstep _ ih.1 ih.2).1, (hstep _ ih.1 ih.2).2.1⟩
  refine ⟨(hall n).1, (hall n).2, ?_⟩
  rw [Function.iterate_succ_apply']
  exact (hstep _ (hall n).1 (hall n).2).2.2

/-! Non-vacuity: a library that reverses for odd states. -/

def exampleLibrary : Library := ⟨fun s => s.sum, fun s n => if s % 2 = 1 then (List.range n).reverse else List.range n⟩

theorem exampleLibrary_lawful : exampleLibrary.Lawful := by
  intro s n
  unfold exampleLibrary
  dsimp only
  split
  · exact List.reverse_perm _
  · exact List.Perm.refl _

def exampleRegs : List (Registration (List Nat)) := [(7, 0, note), (8, 3, note)]

def exampleInbox : Inbox := [(2, msg 7 1), (2, msg 8 2), (3, msg 8 3), (3, msg 7 4), (9, msg 7 5)]

/-- Two messages of each of two priorities, in both orders. -/
example : ∃ t : Table (List Nat), Spec.OneEach exampleRegs t ∧ Comm.Spec.InboxSorted exampleInbox ∧
    (Spec.group exampleRegs 3 exampleInbox 0).map (·.payload) = [4, 1] ∧ (Spec.group exampleRegs 3 exampleInbox 3).map (·.payload) = [3, 2] ∧
    (processMessages exampleLibrary [1, 2] t.handlers ⟨3, 5⟩ exampleInbox ⟨[], [], []⟩).1.agent = [2, 3, 1, 4] ∧
    (processMessages exampleLibrary [1, 3] t.handlers ⟨3, 5⟩ exampleInbox ⟨[], [], []⟩).1.agent = [3, 2, 4, 1] :=
  ⟨_, ⟨rfl, by decide, by decide⟩, by unfold Comm.Spec.InboxSorted exampleInbox; decide, by decide, by decide, by decide +kernel, by decide +kernel⟩

/-- Thirteen different messages of one priority. -/
example : (Spec.group exampleRegs 3 ((List.range 13).map fun i => (1, msg 7 i)) 0).Nodup ∧ (Spec.group exampleRegs 3 ((List.range 13).map fun i => (1, msg 7 i)) 0).length = 13 ∧
    Comm.Spec.InboxSorted ((List.range 13).map fun i => (1, msg 7 i)) := by
  refine ⟨by decide +kernel, by decide +kernel, ?_⟩
  unfold Comm.Spec.InboxSorted
  decide +kernel

example : start 0 = 1 ∧ start 2147483647 = 1 ∧ start 5 = 5 ∧ next 1 = 48271 ∧ next^[9999] 48271 = 399268537 := by
  refine ⟨by decide, by decide, by decide, by decide, by decide +kernel⟩

end Esl.Shuffle
