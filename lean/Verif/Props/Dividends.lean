import Verif.Model.Dividends
import Verif.Lemmas.RunAgent
import Verif.Props.Company
import Mathlib.Data.Nat.Pairing
/-! # C150: dividends in whole simulations -/
namespace Esl.Dividends
open Esl.Comm Esl.Sched Esl.Company Esl.Ledger
variable {σ τ : Type}

/-! ## Specification -/

/-- Agent `c` is a company: it acts as companies do, for what its model says about upcoming dividends, and its callbacks, whatever else they do, leave alone what it remembers about announcements and send none. -/
structure Spec.IsCompany (P : Program (Member τ)) (C : Contents) (c : Nat) (upcoming : Nat → Member τ → Comm.Step → Option Policy × τ) : Prop where
  acts : ∀ n s step, P.act c n s step = companyAct C c (upcoming n) s step
  callbacks : ∀ n code, ∀ e ∈ P.handlers c n code, ∀ s m step, (e.2.function s m step).1.st = s.st ∧ ∀ m' ∈ (e.2.function s m step).2.1, m'.type ≠ announceCode

/-- Agent `x` is registered as a shareholder of the company, and stays so. -/
structure Spec.StaysRegistered (P : Program (Member τ)) (c x : Nat) (s0 : Member τ) : Prop where
  now : x ∈ s0.shareholders.map (·.1)
  callbacks : ∀ n code, ∀ e ∈ P.handlers c n code, ∀ s m step, x ∈ s.shareholders.map (·.1) → x ∈ (e.2.function s m step).1.shareholders.map (·.1)

/-- Agent `x` is a shareholder: it has the callback for announcements, and whatever it does, it keeps shares of company `c`. -/
structure Spec.IsShareholder (P : Program (Member τ)) (C : Contents) (x c : Nat) (s0 : Member τ) : Prop where
  registered : ∀ n, (0, shareholderEntry C x) ∈ P.handlers x n announceCode
  now : c ∈ s0.shares.map (·.1)
  callbacks : ∀ n code, ∀ e ∈ P.handlers x n code, ∀ s m step, c ∈ s.shares.map (·.1) → c ∈ (e.2.function s m step).1.shares.map (·.1)
  acts : ∀ n s step, c ∈ s.shares.map (·.1) → c ∈ (P.act x n s step).1.shares.map (·.1)
  shuffles : ∀ t n, Comm.Spec.IsShuffle (P.shuffle x t n)

/-- Policies can be read back from messages. -/
def Spec.Readable (C : Contents) : Prop := ∀ p, C.policyOf (C.policy p) = p

/-- The announcement date in a message. -/
def Spec.date (C : Contents) (m : Msg) : Nat := (C.policyOf m.payload).announcement

/-- A company announces in order, and never twice: every announcement is for the time at which it is sent, on or after its positive announcement date, the only one of this action for its recipient, and every announcement in an earlier action
has an earlier date. -/
def Spec.AnnouncesInOrder (C : Contents) (c : Nat) (log : List Event) : Prop :=
  ∀ before e after, log = before ++ e :: after → e.agent = c → ∀ m ∈ e.sent, m.type = announceCode →
    m.sender = c ∧ m.received = e.time ∧ 0 < Spec.date C m ∧ Spec.date C m ≤ e.time ∧
    (e.sent.filter fun m' => m'.type == announceCode && m'.recipient == m.recipient) = [m] ∧
    ∀ e' ∈ before, e'.agent = c → ∀ m' ∈ e'.sent, m'.type = announceCode → Spec.date C m' < Spec.date C m

/-! ## Jobs -/

theorem runCallbacks_keeps (J : σ → Prop) (O : Msg → Prop) (hs : Handlers σ) (step : Comm.Step) (m : Msg)
    (h : ∀ e ∈ hs, ∀ s, J s → J (e.2.function s m step).1 ∧ ∀ m' ∈ (e.2.function s m step).2.1, O m') (run : Run σ) (first : Nat) (hj : J run.agent) (ho : ∀ m' ∈ run.outbox, O m') :
    J (runCallbacks step m hs (run, first)).1.agent ∧ (∀ m' ∈ (runCallbacks step m hs (run, first)).1.outbox, O m') := by
  induction hs generalizing run first with
  | nil => exact ⟨hj, ho⟩
  | cons e hs ih =>
    obtain ⟨h1, h2⟩ := h e (List.mem_cons_self ..) run.agent hj
    refine ih (fun e he => h e (List.mem_cons_of_mem _ he)) _ _ h1 fun m' hm => ?_
    rcases List.mem_append.1 hm with hm | hm
    · exact ho m' hm
    · exact h2 m' hm

theorem processAll_keeps (J : σ → Prop) (O : Msg → Prop) (hs : Nat → Handlers σ) (step : Comm.Step)
    (h : ∀ code, ∀ e ∈ hs code, ∀ s m, J s → J (e.2.function s m step).1 ∧ ∀ m' ∈ (e.2.function s m step).2.1, O m') (ms : List Msg) (run : Run σ) (first : Nat) (hj : J run.agent) (ho : ∀ m' ∈ run.outbox, O m') :
    J (processAll hs step ms (run, first)).1.agent ∧ (∀ m' ∈ (processAll hs step ms (run, first)).1.outbox, O m') := by
  induction ms generalizing run first with
  | nil => exact ⟨hj, ho⟩
  | cons m ms ih =>
    obtain ⟨h1, h2⟩ := runCallbacks_keeps J O (hs m.type).reverse step m (fun e he s => h m.type e (List.mem_reverse.1 he) s m) run step.upper hj ho
    exact ih _ _ h1 h2

theorem runCallbacks_outbox (hs : Handlers σ) (step : Comm.Step) (m : Msg) (run : Run σ) (first : Nat) (r : Msg) (hr : r ∈ run.outbox) : r ∈ (runCallbacks step m hs (run, first)).1.outbox := by
  induction hs generalizing run first with
  | nil => exact hr
  | cons e hs ih => exact ih _ _ (List.mem_append_left _ hr)

theorem processAll_outbox (hs : Nat → Handlers σ) (step : Comm.Step) (ms : List Msg) (run : Run σ) (first : Nat) (r : Msg) (hr : r ∈ run.outbox) : r ∈ (processAll hs step ms (run, first)).1.outbox := by
  induction ms generalizing run first with
  | nil => exact hr
  | cons m ms ih => exact ih _ _ (runCallbacks_outbox _ _ _ _ _ _ hr)

theorem runCallbacks_sends (J : σ → Prop) (R : Msg → Prop) (hs : Handlers σ) (step : Comm.Step) (m : Msg) (h : ∀ e ∈ hs, ∀ s, J s → J (e.2.function s m step).1) (e0 : Int × Entry σ) (he0 : e0 ∈ hs)
    (hR : ∀ s, J s → ∃ r ∈ (e0.2.function s m step).2.1, R r) (run : Run σ) (first : Nat) (hj : J run.agent) : ∃ r ∈ (runCallbacks step m hs (run, first)).1.outbox, R r := by
  induction hs generalizing run first with
  | nil => cases he0
  | cons e hs ih =>
    rcases List.mem_cons.1 he0 with rfl | he0
    · obtain ⟨r, hr, hRr⟩ := hR run.agent hj
      refine ⟨r, ?_, hRr⟩
      rw [runCallbacks]
      exact runCallbacks_outbox _ _ _ _ _ _ (List.mem_append_right _ hr)
    · exact ih (fun e he => h e (List.mem_cons_of_mem _ he)) he0 _ _ (h e (List.mem_cons_self ..) run.agent hj)

theorem processAll_sends (J : σ → Prop) (R : Msg → Prop) (hs : Nat → Handlers σ) (step : Comm.Step) (h : ∀ code, ∀ e ∈ hs code, ∀ s m, J s → J (e.2.function s m step).1) (m0 : Msg) (e0 : Int × Entry σ) (he0 : e0 ∈ hs m0.type)
    (hR : ∀ s, J s → ∃ r ∈ (e0.2.function s m0 step).2.1, R r) (ms : List Msg) (hm : m0 ∈ ms) (run : Run σ) (first : Nat) (hj : J run.agent) : ∃ r ∈ (processAll hs step ms (run, first)).1.outbox, R r := by
  induction ms generalizing run first with
  | nil => cases hm
  | cons m ms ih =>
    rcases List.mem_cons.1 hm with rfl | hm
    · obtain ⟨r, hr, hRr⟩ := runCallbacks_sends J R (hs m0.type).reverse step m0 (fun e he s => h m0.type e (List.mem_reverse.1 he) s m0) e0 (List.mem_reverse.2 he0) hR run step.upper hj
      refine ⟨r, ?_, hRr⟩
      rw [processAll]
      exact processAll_outbox _ _ _ _ _ _ hr
    · exact ih hm _ _ (runCallbacks_keeps J (fun _ => True) (hs m.type).reverse step m (fun e he s hs' => ⟨h m.type e (List.mem_reverse.1 he) s m hs', fun _ _ => trivial⟩) run step.upper hj (fun _ _ => trivial)).1

/-- The job of a company: what it remembers and sends is what `act` says, for a state with the same memory. -/
theorem company_job {P : Program (Member τ)} {C : Contents} {c : Nat} {upcoming : Nat → Member τ → Comm.Step → Option Policy × τ} (hc : Spec.IsCompany P C c upcoming) (J : Member τ → Prop)
    (hJ : ∀ n code, ∀ e ∈ P.handlers c n code, ∀ s m step, J s → J (e.2.function s m step).1) (step : Comm.Step) (n : Nat) (a : Agent (Member τ)) (ha : a.id = c) (h0 : J a.state) :
    ∃ s, s.st = a.state.st ∧ J s ∧ (job P step n a).1.state = (companyAct C c (upcoming n) s step).1 ∧
      ((job P step n a).2.sent.filter fun m => m.type == announceCode) = (companyAct C c (upcoming n) s step).2.1 ∧ (job P step n a).2.requested ≤ (companyAct C c (upcoming n) s step).2.2 := by
  subst ha
  obtain ⟨h1, h2⟩ := processAll_keeps (fun s : Member τ => s.st = a.state.st ∧ J s) (fun m => m.type ≠ announceCode) (P.handlers a.id n) step
    (fun code e he s m hs => ⟨⟨by rw [(hc.callbacks n code e he s m step).1]; exact hs.1, hJ n code e he s m step hs.2⟩, (hc.callbacks n code e he s m step).2⟩)
    (handled (P.handlers a.id n) (P.shuffle a.id step.lower n) step.lower a.inbox) ⟨a.state, [], []⟩ step.upper ⟨rfl, h0⟩ (fun m hm => by cases hm)
  refine ⟨_, h1.1, h1.2, ?_, ?_, ?_⟩
  · rw [← hc.acts]; rfl
  · rw [← hc.acts]
    have hsent : (job P step n a).2.sent = (processAll (P.handlers a.id n) step (handled (P.handlers a.id n) (P.shuffle a.id step.lower n) step.lower a.inbox) (⟨a.state, [], []⟩, step.upper)).1.outbox ++
      (P.act a.id n (processAll (P.handlers a.id n) step (handled (P.handlers a.id n) (P.shuffle a.id step.lower n) step.lower a.inbox) (⟨a.state, [], []⟩, step.upper)).1.agent step).2.1 := rfl
    rw [hsent, List.filter_append]
    have e1 : ((processAll (P.handlers a.id n) step (handled (P.handlers a.id n) (P.shuffle a.id step.lower n) step.lower a.inbox) (⟨a.state, [], []⟩, step.upper)).1.outbox.filter fun m => m.type == announceCode) = [] := by
      rw [List.filter_eq_nil_iff]
      intro m hm
      simpa using h2 m hm
    rw [e1, List.nil_append]
    apply List.filter_eq_self.2
    intro m hm
    rw [hc.acts] at hm
    obtain ⟨x, -, rfl⟩ := List.mem_map.1 hm
    simp [announce]
  · rw [← hc.acts]
    exact Nat.min_le_right _ _

/-- What a company sends. -/
theorem companyAct_sent (C : Contents) (c : Nat) (up : Member τ → Comm.Step → Option Policy × τ) (s : Member τ) (step : Comm.Step) (m : Msg) :
    m ∈ (companyAct C c up s step).2.1 ↔ ∃ p, (up s step).1 = some p ∧ p.announcement ≤ step.lower ∧ s.st.lastAnnounced < p.announcement ∧ ∃ x ∈ s.shareholders.map (·.1), m = ⟨announceCode, c, x, 0, step.lower, C.policy p⟩ := by
  unfold companyAct
  simp only
  have h := act_sent s.shareholders s.st ⟨step.lower, step.upper, (up s step).1⟩
  simp only at h
  rw [h]
  cases (up s step).1 with
  | none => simp
  | some p =>
    simp only [Option.some.injEq, exists_eq_left']
    by_cases hd : p.announcement ≤ step.lower ∧ s.st.lastAnnounced < p.announcement
    · rw [if_pos hd, List.mem_map]
      constructor
      · rintro ⟨x, hx, rfl⟩
        obtain ⟨y, hy, rfl⟩ := List.mem_map.1 hx
        exact ⟨hd.1, hd.2, y, ((unique_spec s.shareholders).2 y).1 hy, rfl⟩
      · rintro ⟨-, -, x, hx, rfl⟩
        exact ⟨⟨x, step.lower, p⟩, List.mem_map.2 ⟨x, ((unique_spec s.shareholders).2 x).2 hx, rfl⟩, rfl⟩
    · rw [if_neg hd]
      constructor
      · intro h; cases h
      · rintro ⟨h1, h2, -⟩; exact absurd ⟨h1, h2⟩ hd

theorem companyAct_once (C : Contents) (c : Nat) (up : Member τ → Comm.Step → Option Policy × τ) (s : Member τ) (step : Comm.Step) (m : Msg) (hm : m ∈ (companyAct C c up s step).2.1) :
    ((companyAct C c up s step).2.1.filter fun m' => m'.recipient == m.recipient) = [m] := by
  obtain ⟨p, h1, h2, h3, x, hx, rfl⟩ := (companyAct_sent C c up s step m).1 hm
  unfold companyAct
  simp only
  have h := act_sent s.shareholders s.st ⟨step.lower, step.upper, (up s step).1⟩
  simp only at h
  rw [h, h1]
  simp only
  rw [if_pos ⟨h2, h3⟩, List.map_map, List.filter_map]
  obtain ⟨hasc, hmem⟩ := unique_spec s.shareholders
  have hx' := (hmem x).2 hx
  have : ∀ l : List Nat, l.Pairwise (· < ·) → x ∈ l → l.filter (fun y => y == x) = [x] := by
    intro l hl hx
    induction l with
    | nil => cases hx
    | cons y l ih =>
      rw [List.pairwise_cons] at hl
      rw [List.filter_cons]
      by_cases hy : y = x
      · subst hy
        have hn : l.filter (fun z => z == y) = [] := by
          rw [List.filter_eq_nil_iff]
          intro z hz hzy
          have := hl.1 z hz
          simp at hzy
          omega
        simp [hn]
      · rcases List.mem_cons.1 hx with h | h
        · exact absurd h.symm hy
        · simp [hy, ih hl.2 h]
  have e := this _ hasc hx'
  have e2 : ((uniqueShareholders s.shareholders).filter ((fun m' : Msg => m'.recipient == x) ∘ (announce C c ∘ fun x => (⟨x, step.lower, p⟩ : Announcement)))) = [x] := by
    rw [← e]; rfl
  rw [e2]
  rfl

theorem companyAct_last (C : Contents) (c : Nat) (up : Member τ → Comm.Step → Option Policy × τ) (s : Member τ) (step : Comm.Step) :
    (companyAct C c up s step).1.st.lastAnnounced = match (up s step).1 with
      | none => s.st.lastAnnounced
      | some p => if p.announcement ≤ step.lower then max s.st.lastAnnounced p.announcement else s.st.lastAnnounced :=
  act_state s.shareholders s.st ⟨step.lower, step.upper, (up s step).1⟩

theorem companyAct_next (C : Contents) (c : Nat) (up : Member τ → Comm.Step → Option Policy × τ) (s : Member τ) (step : Comm.Step) (p : Policy) (hp : (up s step).1 = some p) (h : step.lower < p.announcement ∨ step.lower < p.payable) :
    (companyAct C c up s step).2.2 ≤ p.announcement := by
  unfold companyAct
  simp only
  rw [hp]
  unfold act
  simp only
  by_cases h1 : p.announcement ≤ step.lower <;> by_cases h2 : p.payable ≤ step.lower <;> by_cases h3 : s.st.lastAnnounced < p.announcement <;>
    simp only [ge_iff_le, h1, h2, h3, if_true, if_false] <;> omega

theorem companyAct_shareholders (C : Contents) (c : Nat) (up : Member τ → Comm.Step → Option Policy × τ) (s : Member τ) (step : Comm.Step) : (companyAct C c up s step).1.shareholders = s.shareholders := rfl

/-! ## Theorems -/

/-- **C150, never twice.** Whatever dividends the model of a company has upcoming, in every completed simulation the company announces in order and never twice: later announcements have later dates, so that every shareholder gets at most one announcement
for a date, and every announcement is processed by its recipient, at the time at which it is sent. -/
theorem C150_once (P : Program (Member τ)) (C : Contents) (hC : Spec.Readable C) (start end_ fuel k : Nat) (w w' : World (Member τ)) (ts : List Nat) (hu : Sched.Spec.UniqueIds w) (hl : w.log = [])
    (h : runLoop P end_ fuel k start w = some (.ok (w', ts))) (a : Agent (Member τ)) (ha : a ∈ w.agents) (hin : InboxOk a) (upcoming : Nat → Member τ → Comm.Step → Option Policy × τ) (hc : Spec.IsCompany P C a.id upcoming) :
    Spec.AnnouncesInOrder C a.id w'.log ∧
    ∀ before e after, w'.log = before ++ e :: after → e.agent = a.id → ∀ m ∈ e.sent, m.type = announceCode → ∃ e' ∈ after, e'.agent = m.recipient ∧ e'.time = e.time ∧ m ∈ e'.due := by
  have hC' : ∀ p, C.policyOf (C.policy p) = p := hC
  obtain ⟨x, -, -, -, h2⟩ := run_agent P start end_ fuel k w w' ts hu hl h a ha hin
    (fun s log => (∀ e ∈ log, e.agent = a.id → ∀ m ∈ e.sent, m.type = announceCode → Spec.date C m ≤ s.st.lastAnnounced) ∧ Spec.AnnouncesInOrder C a.id log)
    (fun step n y log _ _ hy _ hq => by
      obtain ⟨s, hst, -, e1, e2, -⟩ := company_job hc (fun _ => True) (fun _ _ _ _ _ _ _ _ => trivial) step n y hy trivial
      obtain ⟨-, ja, jt, -⟩ := job_fields P step n y
      have hm : ∀ m ∈ (job P step n y).2.sent, m.type = announceCode → m ∈ (companyAct C a.id (upcoming n) s step).2.1 := by
        intro m hm ht
        rw [← e2]
        exact List.mem_filter.2 ⟨hm, by simpa using ht⟩
      have hlast : s.st.lastAnnounced ≤ (job P step n y).1.state.st.lastAnnounced := by
        rw [e1, companyAct_last]
        cases (upcoming n s step).1 with
        | none => exact Nat.le_refl _
        | some p => simp only; split <;> omega
      refine ⟨fun e he hea m hme ht => ?_, fun before e after hlog hea m hme ht => ?_⟩
      · rcases List.mem_append.1 he with he | he
        · have := hq.1 e he hea m hme ht
          rw [← hst] at this
          omega
        · rw [List.mem_singleton.1 he] at hme
          obtain ⟨p, p1, p2, p3, x, -, rfl⟩ := (companyAct_sent C a.id (upcoming n) s step m).1 (hm m hme ht)
          rw [e1, companyAct_last, p1]
          simp only [Spec.date, hC']
          rw [if_pos p2]
          omega
      · rcases split_append_singleton hlog with ⟨rfl, rfl, rfl⟩ | ⟨c', rfl, hl'⟩
        · have hm1 := hm m hme ht
          obtain ⟨p, p1, p2, p3, x, -, hmeq⟩ := (companyAct_sent C a.id (upcoming n) s step m).1 hm1
          have hdate : Spec.date C m = p.announcement := by rw [hmeq]; simp only [Spec.date, hC']
          refine ⟨by rw [hmeq], by rw [hmeq, jt], by omega, by rw [hdate, jt]; exact p2, ?_, fun e' he' hea' m' hm' ht' => ?_⟩
          · have := companyAct_once C a.id (upcoming n) s step m hm1
            rw [← e2, List.filter_filter] at this
            rw [← this]
            congr 1
            funext m'
            exact Bool.and_comm _ _
          · have := hq.1 e' he' hea' m' hm' ht'
            rw [← hst] at this
            omega
        · exact hq.2 before e c' hl' hea m hme ht)
    (fun s log e hne hq => by
      refine ⟨fun e' he' hea' => ?_, fun before e' after hlog hea' => ?_⟩
      · rcases List.mem_append.1 he' with he' | he'
        · exact hq.1 e' he' hea'
        · rw [List.mem_singleton.1 he'] at hea'
          exact absurd hea' hne
      · rcases split_append_singleton hlog with ⟨rfl, rfl, rfl⟩ | ⟨c', rfl, hl'⟩
        · exact absurd hea' hne
        · exact hq.2 before e' c' hl' hea')
    ⟨(fun e he => by cases he), fun before e after hlog => by simp at hlog⟩
  refine ⟨h2, fun before e after hlog hea m hme ht => ?_⟩
  have hr := (h2 before e after hlog hea m hme ht).2.1
  obtain ⟨e', he', g1, g2, g3⟩ := C20_immediate P start end_ fuel k w w' ts hu hl h before after e hlog m hme (Nat.le_of_eq hr)
  exact ⟨e', he', g1, by rw [g2, hr], g3⟩

/-- **C150, announcements (partial).** In a completed simulation, a company acts on the announcement date of its dividend, which lies in the simulated time, and announces it to every registered shareholder then; the shareholder processes the
announcement on this date. Missing: dividends that are payable after the date of their announcement, and shareholders that answer with records; for both see the counterexamples. -/
theorem C150_announced_partial (P : Program (Member τ)) (C : Contents) (start end_ fuel k : Nat) (w w' : World (Member τ)) (ts : List Nat) (hu : Sched.Spec.UniqueIds w) (hl : w.log = [])
    (h : runLoop P end_ fuel k start w = some (.ok (w', ts))) (a : Agent (Member τ)) (ha : a ∈ w.agents) (hin : InboxOk a) (hw : findWake w.wake a.id = none ∨ findWake w.wake a.id = some start)
    (upcoming : Nat → Member τ → Comm.Step → Option Policy × τ) (hc : Spec.IsCompany P C a.id upcoming) (p : Policy) (hup : ∀ n s step, step.lower ≤ p.announcement → (upcoming n s step).1 = some p)
    (hlast : a.state.st.lastAnnounced < p.announcement) (h1 : start ≤ p.announcement) (h2 : p.announcement < end_) (x : Nat) (hx : Spec.StaysRegistered P a.id x a.state) :
    ∃ before e after, w'.log = before ++ e :: after ∧ e.agent = a.id ∧ e.time = p.announcement ∧ (⟨announceCode, a.id, x, 0, p.announcement, C.policy p⟩ : Msg) ∈ e.sent ∧
      ∃ e' ∈ after, e'.agent = x ∧ e'.time = p.announcement ∧ (⟨announceCode, a.id, x, 0, p.announcement, C.policy p⟩ : Msg) ∈ e'.due := by
  obtain ⟨y, -, -, -, -, hreq, hann⟩ := run_agent P start end_ fuel k w w' ts hu hl h a ha hin
    (fun s log => ((∀ e ∈ log, e.agent = a.id → e.time < p.announcement) → s.st.lastAnnounced < p.announcement) ∧ x ∈ s.shareholders.map (·.1) ∧
      (∀ e ∈ log, e.agent = a.id → e.time < p.announcement → e.requested ≤ p.announcement) ∧
      (∀ before e after, log = before ++ e :: after → e.agent = a.id → e.time = p.announcement → (∀ e' ∈ before, e'.agent = a.id → e'.time < p.announcement) →
        (⟨announceCode, a.id, x, 0, p.announcement, C.policy p⟩ : Msg) ∈ e.sent))
    (fun step n y log _ _ hy _ hq => by
      obtain ⟨s, hst, hJ, e1, e2, e3⟩ := company_job hc (fun s => x ∈ s.shareholders.map (·.1)) (fun n code e he s m step => hx.callbacks n code e he s m step) step n y hy hq.2.1
      obtain ⟨-, ja, jt, -⟩ := job_fields P step n y
      refine ⟨fun hall => ?_, by rw [e1]; exact hJ, fun e he hea hlt => ?_, fun before e after hlog hea het hb => ?_⟩
      · have hlow := hall _ (List.mem_append_right _ (List.mem_singleton_self _)) (by rw [ja, hy])
        rw [jt] at hlow
        have := hq.1 fun e he => hall e (List.mem_append_left _ he)
        rw [e1, companyAct_last, hup n s step (by omega)]
        simp only
        rw [if_neg (by omega), hst]
        exact this
      · rcases List.mem_append.1 he with he | he
        · exact hq.2.2.1 e he hea hlt
        · rw [List.mem_singleton.1 he] at hlt ⊢
          rw [jt] at hlt
          exact Nat.le_trans e3 (companyAct_next C a.id (upcoming n) s step p (hup n s step (by omega)) (.inl hlt))
      · rcases split_append_singleton hlog with ⟨rfl, rfl, rfl⟩ | ⟨c', rfl, hl'⟩
        · rw [jt] at het
          have : (⟨announceCode, a.id, x, 0, p.announcement, C.policy p⟩ : Msg) ∈ (companyAct C a.id (upcoming n) s step).2.1 :=
            (companyAct_sent C a.id (upcoming n) s step _).2 ⟨p, hup n s step (by omega), by omega, by rw [hst]; exact hq.1 hb, x, hJ, by rw [het]⟩
          rw [← e2] at this
          exact (List.mem_filter.1 this).1
        · exact hq.2.2.2 before e c' hl' hea het hb)
    (fun s log e hne hq => by
      refine ⟨fun hall => hq.1 fun e he => hall e (List.mem_append_left _ he), hq.2.1, fun e' he' hea' => ?_, fun before e' after hlog hea' => ?_⟩
      · rcases List.mem_append.1 he' with he' | he'
        · exact hq.2.2.1 e' he' hea'
        · rw [List.mem_singleton.1 he'] at hea'
          exact absurd hea' hne
      · rcases split_append_singleton hlog with ⟨rfl, rfl, rfl⟩ | ⟨c', rfl, hl'⟩
        · exact absurd hea' hne
        · exact hq.2.2.2 before e' c' hl' hea')
    ⟨fun _ => hlast, hx.now, (fun e he => by cases he), fun before e after hlog => by simp at hlog⟩
  obtain ⟨b, e, c, g1, g2, g3, -⟩ := acts_at P start end_ fuel k w w' ts hu hl h a ha hw p.announcement h1 h2 hreq
  obtain ⟨before, e, after, k1, ⟨k2, k3⟩, k4⟩ := exists_first (fun e : Event => e.agent = a.id ∧ e.time = p.announcement) w'.log ⟨e, by rw [g1]; exact List.mem_append_right _ (List.mem_cons_self ..), g2, g3⟩
  have hsent := hann before e after k1 k2 k3 fun e' he' hea' => by
    have hle : e'.time ≤ e.time := by
      obtain ⟨-, -, -, -, acts, hacts, -, hsort⟩ := C18_run P start end_ fuel k w w' ts hu h
      rw [hl, List.nil_append] at hacts
      rw [← hacts, k1, List.pairwise_append] at hsort
      exact hsort.2.2 e' he' e (List.mem_cons_self ..)
    have := k4 e' he'
    simp only [not_and] at this
    have := this hea'
    omega
  refine ⟨before, e, after, k1, k2, k3, hsent, ?_⟩
  exact C20_immediate P start end_ fuel k w w' ts hu hl h before after e k1 _ hsent (Nat.le_of_eq k3.symm)

/-- **C150, negation.** If the dividend is payable after the date of its announcement, as dividends are, the simulation never gets past that date: no run completes, whatever else the agents do. -/
theorem C150_counterexample_payable (P : Program (Member τ)) (C : Contents) (start end_ fuel k : Nat) (w : World (Member τ)) (hu : Sched.Spec.UniqueIds w) (hl : w.log = [])
    (a : Agent (Member τ)) (ha : a ∈ w.agents) (hin : InboxOk a) (hw : findWake w.wake a.id = none ∨ findWake w.wake a.id = some start)
    (upcoming : Nat → Member τ → Comm.Step → Option Policy × τ) (hc : Spec.IsCompany P C a.id upcoming) (p : Policy) (hup : ∀ n s step, step.lower ≤ p.announcement → (upcoming n s step).1 = some p)
    (h1 : start ≤ p.announcement) (h2 : p.announcement < end_) (hpay : p.announcement < p.payable) : ¬∃ w' ts, runLoop P end_ fuel k start w = some (.ok (w', ts)) := by
  rintro ⟨w', ts, h⟩
  obtain ⟨y, -, -, hreq⟩ := run_agent P start end_ fuel k w w' ts hu hl h a ha hin
    (fun _ log => ∀ e ∈ log, e.agent = a.id → e.time ≤ p.announcement → e.requested ≤ p.announcement)
    (fun step n y log _ _ hy _ hq e he hea hle => by
      obtain ⟨s, -, -, -, -, e3⟩ := company_job hc (fun _ => True) (fun _ _ _ _ _ _ _ _ => trivial) step n y hy trivial
      obtain ⟨-, ja, jt, -⟩ := job_fields P step n y
      rcases List.mem_append.1 he with he | he
      · exact hq e he hea hle
      · rw [List.mem_singleton.1 he] at hle ⊢
        rw [jt] at hle
        exact Nat.le_trans e3 (companyAct_next C a.id (upcoming n) s step p (hup n s step hle) (.inr (by omega))))
    (fun s log e hne hq e' he' hea' => by
      rcases List.mem_append.1 he' with he' | he'
      · exact hq e' he' hea'
      · rw [List.mem_singleton.1 he'] at hea'
        exact absurd hea' hne)
    (fun e he => by cases he)
  obtain ⟨b, e, c, g1, g2, g3, g4⟩ := acts_at P start end_ fuel k w w' ts hu hl h a ha hw p.announcement h1 h2 (fun e he hea hlt => hreq e he hea (by omega))
  have h5 := hreq e (by rw [g1]; exact List.mem_append_right _ (List.mem_cons_self ..)) g2 (by omega)
  rcases C19_no_wakeup_skipped P start end_ fuel k w w' ts hu hl h b e c g1 with h6 | ⟨e', he', h6, h7⟩
  · omega
  · have := g4 e' he' (by rw [h6, g2])
    omega

/-- The job of a shareholder: an announcement of a company of which it has shares is answered with a record that is dated at time zero, if the ex-dividend date lies in the step or at its end. -/
theorem shareholder_job {P : Program (Member τ)} {C : Contents} {x c : Nat} {s0 : Member τ} (hs : Spec.IsShareholder P C x c s0) (step : Comm.Step) (n : Nat) (a : Agent (Member τ)) (ha : a.id = x) (hin : InboxOk a)
    (h0 : c ∈ a.state.shares.map (·.1)) :
    c ∈ (job P step n a).1.state.shares.map (·.1) ∧
    ∀ m ∈ (job P step n a).2.due, m.type = announceCode → m.sender = c → step.lower ≤ (C.policyOf m.payload).exDividend → (C.policyOf m.payload).exDividend ≤ step.upper →
      ∃ r ∈ (job P step n a).2.sent, r.type = recordCode ∧ r.recipient = c ∧ r.received = 0 := by
  subst ha
  have hkeep := processAll_keeps (fun s : Member τ => c ∈ s.shares.map (·.1)) (fun _ => True) (P.handlers a.id n) step (fun code e he s m hs' => ⟨hs.callbacks n code e he s m step hs', fun _ _ => trivial⟩)
    (handled (P.handlers a.id n) (P.shuffle a.id step.lower n) step.lower a.inbox) ⟨a.state, [], []⟩ step.upper h0 (fun _ _ => trivial)
  refine ⟨hs.acts n _ step hkeep.1, fun m hm ht hsend hd1 hd2 => ?_⟩
  have hp := handled_perm (P.handlers a.id n) (P.shuffle a.id step.lower n) (hs.shuffles _ _) step.lower a.inbox
  rw [filter_isEmpty_split _ _ _ hin.1] at hp
  rw [(job_fields P step n a).2.2.2.2.2.1] at hm
  have hreg := hs.registered n
  have hmem : m ∈ handled (P.handlers a.id n) (P.shuffle a.id step.lower n) step.lower a.inbox := by
    rw [hp.mem_iff, List.mem_filter]
    refine ⟨hm, ?_⟩
    rw [ht]
    cases hh : P.handlers a.id n announceCode with
    | nil => rw [hh] at hreg; cases hreg
    | cons _ _ => rfl
  obtain ⟨r, hr, hR⟩ := processAll_sends (fun s : Member τ => c ∈ s.shares.map (·.1)) (fun r => r.type = recordCode ∧ r.recipient = c ∧ r.received = 0) (P.handlers a.id n) step
    (fun code e he s m hs' => hs.callbacks n code e he s m step hs') m (0, shareholderEntry C a.id) (by rw [ht]; exact hreg)
    (fun s hs' => by
      simp only [shareholderEntry, handleAnnouncement, List.mem_map, exists_exists_and_eq_and]
      obtain ⟨e, he, hec⟩ : ∃ e, s.shares.find? (fun e => e.1 == c) = some e ∧ True := by
        cases hf : s.shares.find? fun e => e.1 == c with
        | none =>
          obtain ⟨e, he, hec⟩ := List.mem_map.1 hs'
          exact absurd (List.find?_eq_none.1 hf e he) (by simpa using hec)
        | some e => exact ⟨e, rfl, trivial⟩
      refine ⟨⟨c, 0, e.2⟩, ?_, rfl, rfl, rfl⟩
      unfold submitRecords
      rw [List.mem_flatMap]
      refine ⟨((C.policyOf m.payload).exDividend, m.sender), (mem_datesInsert _ _ _).2 (.inl rfl), ?_⟩
      simp only
      rw [if_pos ⟨hd1, hd2⟩, hsend, he]
      exact List.mem_singleton_self _)
    _ hmem ⟨a.state, [], []⟩ step.upper h0
  exact ⟨r, List.mem_append_left _ hr, hR⟩

/-- **C150, negation.** If a shareholder has shares of the company and the ex-dividend date lies between the announcement and the end of the simulation, the simulation never gets past the announcement date: the shareholder answers with a record
that is dated at time zero, and no run completes, whatever else the agents do. -/
theorem C150_counterexample_record (P : Program (Member τ)) (C : Contents) (hC : Spec.Readable C) (start end_ fuel k : Nat) (w : World (Member τ)) (hu : Sched.Spec.UniqueIds w) (hl : w.log = [])
    (a : Agent (Member τ)) (ha : a ∈ w.agents) (hin : InboxOk a) (hw : findWake w.wake a.id = none ∨ findWake w.wake a.id = some start)
    (upcoming : Nat → Member τ → Comm.Step → Option Policy × τ) (hc : Spec.IsCompany P C a.id upcoming) (p : Policy) (hup : ∀ n s step, step.lower ≤ p.announcement → (upcoming n s step).1 = some p)
    (hlast : a.state.st.lastAnnounced < p.announcement) (h1 : start ≤ p.announcement) (h2 : p.announcement < end_) (b : Agent (Member τ)) (hb : b ∈ w.agents) (hbin : InboxOk b) (hx : Spec.StaysRegistered P a.id b.id a.state)
    (hs : Spec.IsShareholder P C b.id a.id b.state) (hd1 : p.announcement ≤ p.exDividend) (hd2 : p.exDividend ≤ end_) : ¬∃ w' ts, runLoop P end_ fuel k start w = some (.ok (w', ts)) := by
  rintro ⟨w', ts, h⟩
  have hC' : ∀ p, C.policyOf (C.policy p) = p := hC
  obtain ⟨before, e, after, g1, -, -, -, e', he', g2, g3, g4⟩ := C150_announced_partial P C start end_ fuel k w w' ts hu hl h a ha hin hw upcoming hc p hup hlast h1 h2 b.id hx
  obtain ⟨y, -, -, -, hrec⟩ := run_agent P start end_ fuel k w w' ts hu hl h b hb hbin
    (fun (s : Member τ) log => a.id ∈ s.shares.map (fun e : Nat × Register Nat => e.1) ∧ ∀ e ∈ log, e.agent = b.id → ∀ m ∈ e.due, m.type = announceCode → m.sender = a.id → e.time ≤ (C.policyOf m.payload).exDividend → (C.policyOf m.payload).exDividend ≤ end_ →
      ∃ r ∈ e.sent, r.type = recordCode ∧ r.recipient = a.id ∧ r.received = 0)
    (fun step n y log hup _ hy hyin hq => by
      obtain ⟨k1, k2⟩ := shareholder_job hs step n y hy hyin hq.1
      refine ⟨k1, fun e he hea m hm ht hsend hd1 hd2 => ?_⟩
      rcases List.mem_append.1 he with he | he
      · exact hq.2 e he hea m hm ht hsend hd1 hd2
      · rw [List.mem_singleton.1 he] at hm hd1 ⊢
        rw [(job_fields P step n y).2.2.1] at hd1
        exact k2 m hm ht hsend hd1 (by omega))
    (fun s log e hne hq => ⟨hq.1, fun e' he' hea' => by
      rcases List.mem_append.1 he' with he' | he'
      · exact hq.2 e' he' hea'
      · rw [List.mem_singleton.1 he'] at hea'
        exact absurd hea' hne⟩)
    ⟨hs.now, fun e he => by cases he⟩
  have hmem : e' ∈ w'.log := by rw [g1]; exact List.mem_append_right _ (List.mem_cons_of_mem _ he')
  obtain ⟨r, hr, -, -, hr0⟩ := hrec e' hmem g2 _ g4 rfl rfl (by simp only [hC']; omega) (by simp only [hC']; exact hd2)
  have := C21_counterexample_dated_past P start end_ fuel k w w' ts hu hl h e' hmem r hr
  omega

/-! ## Instances -/

/-- Contents of messages that can be read. -/
def contents : Contents := ⟨fun p => Nat.pair p.announcement (Nat.pair p.exDividend p.payable), fun n => ⟨n.unpair.1, n.unpair.2.unpair.1, n.unpair.2.unpair.2⟩, fun _ => 0⟩

theorem contents_readable : Spec.Readable contents := by
  rintro ⟨a, b, c⟩
  simp [contents, Nat.unpair_pair]

/-- Company 1 with a dividend that is upcoming; the others do nothing, but agent 2 is a shareholder. -/
def program (p : Policy) : Program (Member Unit) where
  handlers := fun i _ code => if i = 2 ∧ code = announceCode then [(0, shareholderEntry contents 2)] else []
  act := fun i _ s step => if i = 1 then companyAct contents 1 (fun _ _ => (some p, ())) s step else (s, [], step.upper)
  shuffle := fun _ _ _ l => l

theorem program_company (p : Policy) : Spec.IsCompany (program p) contents 1 (fun _ _ _ => (some p, ())) := by
  refine ⟨fun n s step => rfl, fun n code e he => ?_⟩
  have : (program p).handlers 1 n code = [] := rfl
  rw [this] at he
  cases he

theorem program_registered (p : Policy) (s : Member Unit) (h : 2 ∈ s.shareholders.map (·.1)) : Spec.StaysRegistered (program p) 1 2 s := by
  refine ⟨h, fun n code e he => ?_⟩
  have : (program p).handlers 1 n code = [] := rfl
  rw [this] at he
  cases he

theorem program_shareholder (p : Policy) (s : Member Unit) (h : 1 ∈ s.shares.map (·.1)) : Spec.IsShareholder (program p) contents 2 1 s := by
  refine ⟨fun n => ?_, h, fun n code e he s m step hs => ?_, fun n s step hs => hs, fun _ _ l => List.Perm.refl l⟩
  · simp [program]
  · simp only [program, true_and] at he
    split at he
    · rw [List.mem_singleton.1 he]; exact hs
    · cases he

/-- A company and its shareholder, with the shares that the shareholder says it has. -/
def world (shares : List (Nat × Register Nat)) : World (Member Unit) :=
  ⟨[⟨1, ⟨{}, [(2, [(common, 100)])], [], [], ()⟩, [], []⟩, ⟨2, ⟨{}, [], [], shares, ()⟩, [], []⟩], [], 0, []⟩

theorem world_inbox (shares : List (Nat × Register Nat)) : ∀ a ∈ (world shares).agents, InboxOk a := by
  intro a ha
  have : a.inbox = [] := by
    rcases List.mem_cons.1 ha with rfl | ha
    · rfl
    · rw [List.mem_singleton.1 ha]
  exact ⟨by rw [this]; exact List.Pairwise.nil, by rw [this]; intro e he; cases he⟩

/-- A dividend that is payable at once, to a shareholder that does not know of its shares: the simulation completes, and the announcement is made. -/
example : ∃ w' ts, runLoop (program ⟨3, 3, 3⟩) 10 5 10 0 (world []) = some (.ok (w', ts)) ∧ Spec.AnnouncesInOrder contents 1 w'.log ∧
    ∃ before e after, w'.log = before ++ e :: after ∧ e.agent = 1 ∧ e.time = 3 ∧ (⟨announceCode, 1, 2, 0, 3, contents.policy ⟨3, 3, 3⟩⟩ : Msg) ∈ e.sent := by
  obtain ⟨w', ts, h⟩ : ∃ w' ts, runLoop (program ⟨3, 3, 3⟩) 10 5 10 0 (world []) = some (.ok (w', ts)) := by
    have hb : (match runLoop (program ⟨3, 3, 3⟩) 10 5 10 0 (world []) with | some (.ok _) => true | _ => false) = true := by decide +kernel
    revert hb
    cases hr : runLoop (program ⟨3, 3, 3⟩) 10 5 10 0 (world []) with
    | none => intro hb; cases hb
    | some o =>
      cases o with
      | ok r => exact fun _ => ⟨_, _, rfl⟩
      | throws => intro hb; cases hb
      | ub => intro hb; cases hb
  refine ⟨w', ts, h, (C150_once _ contents contents_readable 0 10 5 10 (world []) w' ts (by unfold Sched.Spec.UniqueIds; decide) rfl h _ (List.mem_cons_self ..) (world_inbox [] _ (List.mem_cons_self ..)) _ (program_company _)).1, ?_⟩
  obtain ⟨before, e, after, h1, h2, h3, h4, -⟩ := C150_announced_partial (program ⟨3, 3, 3⟩) contents 0 10 5 10 (world []) w' ts (by unfold Sched.Spec.UniqueIds; decide) rfl h _ (List.mem_cons_self ..)
    (world_inbox [] _ (List.mem_cons_self ..)) (.inl rfl) _ (program_company _) ⟨3, 3, 3⟩ (fun _ _ _ _ => rfl) (by decide) (by decide) (by decide) 2 (program_registered _ _ (by decide))
  exact ⟨before, e, after, h1, h2, h3, h4⟩

/-- A dividend that is payable four days after it was announced. -/
example (fuel k : Nat) : ¬∃ w' ts, runLoop (program ⟨3, 5, 7⟩) 10 fuel k 0 (world []) = some (.ok (w', ts)) :=
  C150_counterexample_payable _ contents 0 10 fuel k (world []) (by unfold Sched.Spec.UniqueIds; decide) rfl _ (List.mem_cons_self ..) (world_inbox [] _ (List.mem_cons_self ..)) (.inl rfl) _ (program_company _) ⟨3, 5, 7⟩
    (fun _ _ _ _ => rfl) (by decide) (by decide) (by decide)

/-- A dividend that is payable at once, to a shareholder that knows of its shares. -/
example (fuel k : Nat) : ¬∃ w' ts, runLoop (program ⟨3, 3, 3⟩) 10 fuel k 0 (world [(1, [(common, 100)])]) = some (.ok (w', ts)) :=
  C150_counterexample_record _ contents contents_readable 0 10 fuel k (world [(1, [(common, 100)])]) (by unfold Sched.Spec.UniqueIds; decide) rfl _ (List.mem_cons_self ..) (world_inbox [(1, [(common, 100)])] _ (List.mem_cons_self ..)) (.inl rfl) _ (program_company _) ⟨3, 3, 3⟩
    (fun _ _ _ _ => rfl) (by decide) (by decide) (by decide) _ (List.mem_cons_of_mem _ (List.mem_cons_self ..)) (world_inbox [(1, [(common, 100)])] _ (List.mem_cons_of_mem _ (List.mem_cons_self ..))) (program_registered _ _ (by decide))
    (program_shareholder _ _ (by decide)) (by decide) (by decide)

end Esl.Dividends
