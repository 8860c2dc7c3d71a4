import Verif.Props.Venue
import Verif.Lemmas.FairBook
/-! # C175: what market data show during a simulation -/
namespace Esl.Feed
open Esl.Comm Esl.Sched Esl.Book Esl.Exchange Esl.Ledger Esl.Venue
variable {τ : Type}

/-! ## Specification -/

/-- A market data message in the name of agent `x`. -/
def Spec.isData (x : Nat) (m : Msg) : Prop := m.type = dataCode ∧ m.sender = x

/-- What a market data message shows: trades (price and quantity), best ask, best bid, symbol. -/
structure Spec.Shown where
  trades : List (Int × Nat)
  ask : Option Int
  bid : Option Int
  symbol : Nat
deriving DecidableEq

/-- A market data message that makes sense: the best bid is below the best ask, and there is at most one trade, of a positive quantity. -/
def Spec.Sensible (s : Spec.Shown) : Prop :=
  (∀ a b, s.ask = some a → s.bid = some b → b < a) ∧ s.trades.length ≤ 1 ∧ ∀ t ∈ s.trades, 0 < t.2

/-- A simulation in which agent `x` is an exchange, as in `Venue.Spec.Hosts`, and in which nobody else sends market data in its name. Market data can be read. -/
structure Spec.Publishes (c : Contents) (read : Nat → Spec.Shown) (x : Nat) (P : Program (Desk τ)) : Prop extends Venue.Spec.Hosts c x P where
  legible : ∀ trades ask bid symbol, read (c.data trades ask bid symbol) = ⟨trades, ask, bid, symbol⟩
  genuine : ∀ i r code, (i = x → code ∉ Venue.Spec.codes) → ∀ e ∈ P.handlers i r code, ∀ s m step, ∀ m' ∈ (e.2.function s m step).2.1, ¬ Spec.isData x m'
  genuineActs : ∀ i r s step, ∀ m' ∈ (P.act i r s step).2.1, ¬ Spec.isData x m'

/-! ## Lemmas -/

theorem reportLoop_shown (latency : Nat → Nat) (lower sender : Nat) (o : Order) (b : Book) (changed : Bool) (rs : List Report) (subs : Option (List (Nat × Subscription)))
    (a arrival symbol : Nat) (trades : List (Int × Nat)) (ask bid : Option Int) (h : Out.data a arrival symbol trades ask bid ∈ (reportLoop latency lower sender o b changed rs subs).2) :
    trades = [] ∨ ∃ r ∈ rs, r.state = .match_ ∧ trades = [(r.limit, r.quantity)] := by
  induction rs generalizing subs with
  | nil => cases subs <;> simp [reportLoop] at h
  | cons r rs ih =>
    have lift : (trades = [] ∨ ∃ r ∈ rs, r.state = .match_ ∧ trades = [(r.limit, r.quantity)]) → trades = [] ∨ ∃ r' ∈ r :: rs, r'.state = .match_ ∧ trades = [(r'.limit, r'.quantity)] := by
      rintro (h | ⟨r', h1, h2⟩)
      · exact .inl h
      · exact .inr ⟨r', List.mem_cons_of_mem _ h1, h2⟩
    cases subs with
    | none =>
      simp only [reportLoop, List.mem_cons, reduceCtorEq, false_or] at h
      exact lift (ih none h)
    | some l =>
      simp only [reportLoop] at h
      split at h
      · simp only [List.mem_cons, reduceCtorEq, false_or, List.mem_append] at h
        rcases h with h | h
        · obtain ⟨e, he, hm⟩ := List.mem_flatMap.mp h
          obtain ⟨e0, _, rfl⟩ := List.mem_map.mp he
          unfold feedOne at hm
          split at hm
          · simp at hm
          · simp only [List.mem_singleton, Out.data.injEq] at hm
            obtain ⟨_, _, _, h3, _, _⟩ := hm
            by_cases hr : r.state = .match_
            · simp only [hr, decide_true, if_true] at h3
              exact .inr ⟨r, List.mem_cons_self .., hr, h3⟩
            · simp only [hr, decide_false, Bool.false_eq_true, if_false] at h3
              exact .inl h3
        · exact lift (ih _ h)
      · simp only [List.mem_cons, reduceCtorEq, false_or] at h
        exact lift (ih _ h)

/-- All books of an exchange are fair. -/
def Fairs (x : Exchange) : Prop := ∀ t b, x.books.lookup t = some b → Fair b

/-- One event. -/
theorem handle_fair (latency : Nat → Nat) (x : Exchange) (lower : Nat) (e : Exchange.Event) (x' : Exchange) (outs : List Out) (h : handle latency x lower e = .ok (x', outs)) (hf : Fairs x) :
    Fairs x' ∧ ∀ a arrival symbol trades ask bid, Out.data a arrival symbol trades ask bid ∈ outs → Spec.Sensible ⟨trades, ask, bid, symbol⟩ := by
  cases e with
  | logon a sup =>
    simp only [handle, Outcome.ok.injEq, Prod.mk.injEq] at h
    obtain ⟨rfl, rfl⟩ := h
    exact ⟨hf, by simp⟩
  | logout a =>
    simp only [handle, Outcome.ok.injEq, Prod.mk.injEq] at h
    obtain ⟨rfl, rfl⟩ := h
    exact ⟨hf, by simp⟩
  | request a d ty is =>
    simp only [handle] at h
    cases hr : requestAll a d lower ty is x.subscriptions with
    | ok subs =>
      rw [hr] at h
      simp only [Outcome.bind_ok, Outcome.ok.injEq, Prod.mk.injEq] at h
      obtain ⟨rfl, rfl⟩ := h
      exact ⟨hf, by simp⟩
    | throws => rw [hr] at h; cases h
    | ub => rw [hr] at h; cases h
  | order q o =>
    simp only [handle, insertOrder] at h
    cases hl : x.books.lookup o.symbol with
    | none => rw [hl] at h; cases h
    | some b0 =>
      rw [hl] at h
      simp only [Outcome.ok.injEq, Prod.mk.injEq] at h
      obtain ⟨rfl, rfl⟩ := h
      have hb := fair_insert b0 o (hf _ _ hl)
      refine ⟨fun t b hb' => ?_, fun a arrival symbol trades ask bid hm => ?_⟩
      · simp only [lookup_assignKey] at hb'
        split at hb'
        · rename_i ht
          rw [ht, hl] at hb'
          simp only [Option.map_some, Option.some.injEq] at hb'
          rw [← hb']
          exact hb.strip
        · exact hf t b hb'
      · obtain ⟨-, -, rfl, rfl⟩ := reportLoop_current _ _ _ _ _ _ _ _ _ _ _ _ _ _ hm
        refine ⟨fun a b h1 h2 => hb.best b a h2 h1, ?_⟩
        rcases reportLoop_shown _ _ _ _ _ _ _ _ _ _ _ _ _ _ hm with rfl | ⟨r, h1, h2, rfl⟩
        · simp
        · refine ⟨by simp, fun t ht => ?_⟩
          simp only [List.mem_singleton] at ht
          subst ht
          exact hb.matches_ r h1 h2
  | cancel symbol id =>
    simp only [handle, Outcome.ok.injEq, Prod.mk.injEq] at h
    obtain ⟨rfl, rfl⟩ := h
    refine ⟨fun t b hb' => ?_, by simp⟩
    unfold cancelOrder at hb'
    cases hl : x.books.lookup symbol with
    | none => rw [hl] at hb'; exact hf t b hb'
    | some b0 =>
      rw [hl] at hb'
      simp only [lookup_assignKey] at hb'
      split at hb'
      · rename_i ht
        rw [ht, hl] at hb'
        simp only [Option.map_some, Option.some.injEq] at hb'
        rw [← hb']
        exact fair_cancel b0 id (hf _ _ hl)
      · exact hf t b hb'

/-- Callbacks whose messages have a property. -/
theorem callbacks_out {σ : Type} (Q : Msg → Prop) (step : Step) (m : Msg) (hs : Handlers σ) (h : ∀ e ∈ hs, ∀ s m step, ∀ m' ∈ (e.2.function s m step).2.1, Q m') (run : Run σ) (first : Nat) :
    ∃ out, (runCallbacks step m hs (run, first)).1.outbox = run.outbox ++ out ∧ ∀ m' ∈ out, Q m' := by
  induction hs generalizing run first with
  | nil => exact ⟨[], by simp [runCallbacks], by simp⟩
  | cons e hs ih =>
    obtain ⟨p, f⟩ := e
    rw [runCallbacks]
    simp only
    obtain ⟨out, i3, i4⟩ := ih (fun e he => h e (List.mem_cons_of_mem _ he)) ⟨(f.function run.agent m step).1, run.outbox ++ (f.function run.agent m step).2.1, run.calls ++ [(m, p, f.line)]⟩
      (min first (f.function run.agent m step).2.2)
    refine ⟨(f.function run.agent m step).2.1 ++ out, by rw [i3]; exact List.append_assoc .., fun m' hm' => ?_⟩
    rcases List.mem_append.1 hm' with h' | h'
    · exact h (p, f) (List.mem_cons_self ..) _ _ _ m' h'
    · exact i4 m' h'

open Classical in
/-- Counts messages that do not make sense. -/
noncomputable def odd (read : Nat → Spec.Shown) (x : Nat) (m : Msg) : Int := if Spec.isData x m ∧ ¬ Spec.Sensible (read m.payload) then 1 else 0

theorem odd_zero (read : Nat → Spec.Shown) (x : Nat) (ms : List Msg) (h : ∀ m ∈ ms, Spec.isData x m → Spec.Sensible (read m.payload)) : weigh (odd read x) ms = 0 := by
  induction ms with
  | nil => rfl
  | cons m ms ih =>
    rw [weigh_cons, ih fun m' h' => h m' (List.mem_cons_of_mem _ h')]
    have := h m (List.mem_cons_self ..)
    unfold odd
    rw [if_neg fun h' => h'.2 (this h'.1)]
    rfl

theorem odd_nonneg (read : Nat → Spec.Shown) (x : Nat) (ms : List Msg) : 0 ≤ weigh (odd read x) ms := by
  induction ms with
  | nil => exact Int.le_refl _
  | cons m ms ih =>
    rw [weigh_cons]
    unfold odd at ih ⊢
    split <;> omega

theorem odd_none (read : Nat → Spec.Shown) (x : Nat) (ms : List Msg) (h : weigh (odd read x) ms = 0) : ∀ m ∈ ms, Spec.isData x m → Spec.Sensible (read m.payload) := by
  induction ms with
  | nil => simp
  | cons m ms ih =>
    rw [weigh_cons] at h
    have h1 := odd_nonneg read x ms
    have h2 : 0 ≤ odd read x m := by unfold odd; split <;> omega
    intro m' hm' hd
    rcases List.mem_cons.1 hm' with rfl | hm'
    · by_contra hs
      have : odd read x m' = 1 := by unfold odd; rw [if_pos ⟨hd, hs⟩]
      omega
    · exact ih (by omega) m' hm' hd

theorem publishes_flow {c : Contents} {read : Nat → Spec.Shown} {x : Nat} {P : Program (Desk τ)} (H : Spec.Publishes c read x P) :
    Flow (fun i (d : Desk τ) => i = x → d.failed = false) (fun i d => i = x → Fairs d.exchange) (fun _ _ => 0) (fun _ => 0) (odd read x) P where
  shuffles := H.shuffles
  backMessage := (H.toHosts.units 0 0 .buy).backMessage
  backAct := (H.toHosts.units 0 0 .buy).backAct
  message := fun i r step m run hm hg hal => by
    have hz : ∀ out : List Msg, weigh (fun _ => (0 : Int)) out = 0 := fun out => by simp [weigh]
    by_cases hi : i = x
    · subst hi
      obtain ⟨-, out, h1, h2⟩ := exchange_message H.toHosts r step m run (hal rfl)
      rcases h2 with ⟨e, latency, outs, he, hh, rfl⟩ | ⟨he, hx, hq⟩
      · obtain ⟨g1, g2⟩ := handle_fair latency run.agent.exchange step.lower e _ outs hh (hg rfl)
        refine ⟨fun _ => g1, _, h1, ?_⟩
        have hodd := odd_zero read i (outs.map (post c i step.lower)) fun m' hm' hd => by
          obtain ⟨o, ho, rfl⟩ := List.mem_map.1 hm'
          cases o with
          | report => exact absurd hd.1 (by simp [post, reportCode, dataCode])
          | data a arrival symbol trades ask bid =>
            simp only [post, H.legible]
            exact g2 _ _ _ _ _ _ ho
        rw [hz, hodd]
        rfl
      · obtain ⟨out', h3, h4⟩ := callbacks_out (fun m' => ¬ Spec.isData i m') step m (P.handlers i r m.type).reverse
          (fun e he' => H.genuine i r m.type (fun _ => (event_codes c m).1 he) e (List.mem_reverse.1 he')) run step.upper
        refine ⟨fun _ => by rw [hx]; exact hg rfl, out', h3, ?_⟩
        rw [hz, odd_zero read i _ fun m' hm' hd => absurd hd (h4 m' hm')]
        rfl
    · obtain ⟨out, h3, h4⟩ := callbacks_out (fun m' => ¬ Spec.isData x m') step m (P.handlers i r m.type).reverse
        (fun e he' => H.genuine i r m.type (fun h => absurd h hi) e (List.mem_reverse.1 he')) run step.upper
      refine ⟨fun h => absurd h hi, out, h3, ?_⟩
      rw [hz, odd_zero read x _ fun m' hm' hd => absurd hd (h4 m' hm')]
      rfl
  act := fun i r d step hg hal => by
    have hz : ∀ out : List Msg, weigh (fun _ => (0 : Int)) out = 0 := fun out => by simp [weigh]
    refine ⟨fun hi => ?_, ?_⟩
    · subst hi
      rw [(H.acts r d ⟨0, 0, 0, 0, 0, 0⟩ step).1]
      exact hg rfl
    · rw [hz, odd_zero read x _ fun m' hm' hd => absurd hd (H.genuineActs i r d step m' hm')]

/-! ## C175 -/

/-- **C175.** In every simulation with an exchange, every market data message that the exchange has sent shows a best bid below the best ask, and at most one trade, of a positive quantity: whatever the agents order, cancel and request, and in whatever
order their messages are handled. -/
theorem C175_simulation (c : Contents) (read : Nat → Spec.Shown) (x : Nat) (P : Program (Desk τ)) (H : Spec.Publishes c read x P) (start end_ fuel k : Nat) (w w' : World (Desk τ)) (ts : List Nat)
    (hw : Venue.Spec.Start x w) (h : runLoop P end_ fuel k start w = some (.ok (w', ts))) (y : Agent (Desk τ)) (hy : y ∈ w'.agents) (hyx : y.id = x) (hok : y.state.failed = false) :
    ∀ m ∈ Venue.Spec.sentIn w', Spec.isData x m → Spec.Sensible (read m.payload) := by
  have h1 := (start_good hw).1
  have h2 : ∀ a ∈ w.agents, a.id = x → Fairs a.state.exchange := by
    intro a ha hax t b hb
    obtain ⟨z, hz, hzx, he⟩ := hw.exchange
    have : a = z := eq_of_id w.agents hw.ids a z ha hz (by rw [hax, hzx])
    rw [this] at hb
    rw [he t b hb]
    exact fair_empty
  have hn' : (w'.agents.map (·.id)).Nodup := (run_induct P end_ fuel (fun w : World (Desk τ) => Sched.Spec.UniqueIds w) (fun _ _ _ _ hn hr _ => by unfold Sched.Spec.UniqueIds at *; rw [round_ids hn hr]; exact hn) k start w w' ts hw.ids h hw.ids).1
  obtain ⟨-, hl⟩ := flow_run (publishes_flow H) start end_ fuel k w w' ts hw.ids hw.log h1 h2 h (fun z hz hzx => by
    rw [eq_of_id w'.agents hn' z y hz hy (by rw [hzx, hyx])]; exact hok)
  have hz : ∀ ags : List (Agent (Desk τ)), ledger (fun _ _ => (0 : Int)) (fun _ => 0) ags = 0 := by
    intro ags
    have : flow (fun _ (_ : Desk τ) => (0 : Int)) (fun _ => 0) = fun _ => 0 := by
      funext a
      have hms : ∀ ms : List Msg, weigh (fun _ => (0 : Int)) ms = 0 := fun ms => by simp [weigh]
      unfold flow
      simp only [hms]
      rfl
    rw [ledger, this]
    simp
  rw [hz, hz] at hl
  exact odd_none read x _ (by unfold Venue.Spec.sentIn; omega)

/-- **C175, one message.** When an exchange handles an order, every market data message that it sends is from the exchange, is sent at the beginning of the step and arrives after the delay to its recipient, and shows the best ask and the best bid of the
order book as it is after the order, for the symbol of the order. -/
theorem C175_message (c : Contents) (latency : Nat → Nat → Nat) (self : Nat) (d : Desk τ) (m : Msg) (step : Step) (ht : m.type = orderCode) (hok : ((exchangeEntry c latency self).function d m step).1.failed = false) :
    ∃ b', ((exchangeEntry c latency self).function d m step).1.exchange.books.lookup (c.order m.payload).symbol = some b' ∧
      ∀ m' ∈ ((exchangeEntry c latency self).function d m step).2.1, m'.type = dataCode → m'.sender = self ∧ m'.sent = step.lower ∧ m'.received = u64 (step.lower + latency step.lower m'.recipient) ∧
        ∃ trades, m'.payload = c.data trades b'.ask b'.bid (c.order m.payload).symbol := by
  have he : event c m = some (.order m.sender (c.order m.payload)) := by
    simp [event, ht, orderCode, logonCode, logoutCode, requestCode]
  simp only [exchangeEntry, he] at hok ⊢
  cases hx : handle (latency step.lower) d.exchange step.lower (.order m.sender (c.order m.payload)) with
  | ok res =>
    obtain ⟨x', outs⟩ := res
    simp only
    have hb : ∃ b', x'.books.lookup (c.order m.payload).symbol = some b' := by
      simp only [handle, insertOrder] at hx
      cases hl : d.exchange.books.lookup (c.order m.payload).symbol with
      | none => rw [hl] at hx; cases hx
      | some b0 =>
        rw [hl] at hx
        simp only [Outcome.ok.injEq, Prod.mk.injEq] at hx
        obtain ⟨rfl, -⟩ := hx
        simp only [lookup_assignKey, if_true, hl]
        exact ⟨_, rfl⟩
    obtain ⟨b', hb'⟩ := hb
    refine ⟨b', hb', fun m' hm' hd => ?_⟩
    obtain ⟨o, ho, rfl⟩ := List.mem_map.1 hm'
    cases o with
    | report => exact absurd hd (by simp [post, reportCode, dataCode])
    | data a arrival symbol trades ask bid =>
      obtain ⟨b2, h1, h2, h3, h4, h5⟩ := C96_current _ _ _ _ _ _ _ hx _ _ _ _ _ _ ho
      rw [h2, hb', Option.some.injEq] at h1
      subst h1
      exact ⟨rfl, rfl, h5, trades, by simp [post, h2, h3, h4]⟩
  | throws => rw [hx] at hok; cases hok
  | ub => rw [hx] at hok; cases hok

/-! ### An example -/

def ofOption : Option Int → List Nat
  | none => [0, 0]
  | some z => [1, ofInt z]

def toOption : Nat → Nat → Option Int
  | 0, _ => none
  | _, n => some (toInt n)

/-- Contents as in `Venue.contents`, and market data: of trades their number and the last one. Message 4 asks for a snapshot of symbol 7. -/
def contents : Contents where
  supply := fun _ _ => none
  request := fun _ => (1, .snapshot, [7])
  order := fun n => if n = 1 then ⟨.goodUntilCancelled, .sell, 7, 1, 100, 5⟩ else ⟨.goodUntilCancelled, .buy, 7, 2, 101, 2⟩
  cancel := fun _ => (7, 0)
  report := Venue.contents.report
  reported := Venue.contents.reported
  data := fun trades ask bid symbol => pack ([symbol] ++ ofOption ask ++ ofOption bid ++ [trades.length] ++ trades.flatMap fun t => [ofInt t.1, t.2])

/-- Reads `k` trades. -/
def readTrades : Nat → List Nat → List (Int × Nat)
  | 0, _ => []
  | k + 1, p :: q :: l => (toInt p, q) :: readTrades k l
  | _ + 1, _ => []

def read (n : Nat) : Spec.Shown :=
  match unpack 6 n with
  | [symbol, a0, a1, b0, b1, k] => ⟨readTrades k ((unpack (6 + 2 * k) n).drop 6), toOption a0 a1, toOption b0 b1, symbol⟩
  | _ => ⟨[], none, none, 0⟩

theorem unpack_prefix (l : List Nat) (k : Nat) (hk : k ≤ l.length) : unpack k (pack l) = l.take k := by
  induction l generalizing k with
  | nil =>
    have : k = 0 := by simpa using hk
    subst this; rfl
  | cons a l ih =>
    cases k with
    | zero => rfl
    | succ k =>
      show unpack (k + 1) (Nat.pair a (pack l)) = _
      rw [unpack, Nat.unpair_pair]
      simp only [List.take_succ_cons]
      rw [ih k (by simpa using hk)]

theorem readTrades_flat (trades : List (Int × Nat)) : readTrades trades.length (trades.flatMap fun t => [ofInt t.1, t.2]) = trades := by
  induction trades with
  | nil => rfl
  | cons t l ih =>
    obtain ⟨p, q⟩ := t
    simp only [List.flatMap_cons, List.length_cons, List.cons_append, List.nil_append, readTrades, toInt_ofInt, ih]

theorem flat_length (trades : List (Int × Nat)) : (trades.flatMap fun t => [ofInt t.1, t.2]).length = 2 * trades.length := by
  induction trades with
  | nil => rfl
  | cons t l ih => simp only [List.flatMap_cons, List.length_append, ih, List.length_cons, List.length_nil]; omega

theorem contents_legible (trades : List (Int × Nat)) (ask bid : Option Int) (symbol : Nat) : read (contents.data trades ask bid symbol) = ⟨trades, ask, bid, symbol⟩ := by
  have hl := flat_length trades
  have key : ∀ a0 a1 b0 b1 : Nat, read (pack ([symbol, a0, a1, b0, b1, trades.length] ++ trades.flatMap fun t => [ofInt t.1, t.2])) = ⟨trades, toOption a0 a1, toOption b0 b1, symbol⟩ := by
    intro a0 a1 b0 b1
    unfold read
    rw [unpack_prefix _ 6 (by simp)]
    simp only [List.cons_append, List.nil_append, List.take_succ_cons, List.take_zero]
    rw [unpack_prefix _ _ (by simp only [List.length_cons, hl]; omega), List.take_of_length_le (by simp only [List.length_cons, hl]; omega)]
    simp only [List.drop_succ_cons, List.drop_zero, readTrades_flat]
  simp only [List.cons_append, List.nil_append] at key
  have e : ∀ a : Option Int, ∃ n, ofOption a = [if a.isSome then 1 else 0, n] ∧ toOption (if a.isSome then 1 else 0) n = a := by
    intro a
    cases a with
    | none => exact ⟨0, rfl, rfl⟩
    | some z => exact ⟨ofInt z, rfl, by simp [toOption, toInt_ofInt]⟩
  obtain ⟨n, e1, e2⟩ := e ask
  obtain ⟨k, e3, e4⟩ := e bid
  simp only [contents, e1, e3, List.cons_append, List.nil_append]
  rw [key, e2, e4]

/-- Agent 0 is an exchange. Agent 3 asks for market data at time 1; agents 1 and 2 send their orders at times 2 and 3. `rest` counts what an agent has sent. -/
def trading : Program (Desk Nat) where
  handlers := fun i _ code => if i = 0 ∧ code ∈ Venue.Spec.codes then [(0, exchangeEntry contents (fun _ _ => 0) 0)] else []
  act := fun i _ s step =>
    if i = 3 ∧ s.rest = 0 ∧ step.lower = 1 then ({ s with rest := 1 }, [⟨requestCode, 3, 0, 1, 1, 4⟩], step.upper)
    else if i = 1 ∧ s.rest = 0 ∧ step.lower = 2 then ({ s with rest := 1 }, [⟨orderCode, 1, 0, 2, 2, 1⟩], step.upper)
    else if i = 2 ∧ s.rest = 0 ∧ step.lower = 3 then ({ s with rest := 1 }, [⟨orderCode, 2, 0, 3, 3, 2⟩], step.upper)
    else (s, [], min step.upper (step.lower + 1))
  shuffle := fun _ _ _ ms => ms

def opening : World (Desk Nat) where
  agents := [⟨0, ⟨create [7] [(7, empty)], false, 0⟩, [], []⟩, ⟨1, ⟨create [] [], false, 0⟩, [], []⟩, ⟨2, ⟨create [] [], false, 0⟩, [], []⟩, ⟨3, ⟨create [] [], false, 0⟩, [], []⟩]
  wake := [(0, 1), (1, 1), (2, 1), (3, 1)]
  first := 1
  log := []

theorem trading_sends (i r : Nat) (s : Desk Nat) (step : Step) : ∀ m' ∈ (trading.act i r s step).2.1, m'.type ≠ reportCode ∧ m'.type ≠ dataCode := by
  intro m' hm'
  unfold trading at hm'
  simp only at hm'
  split at hm'
  · simp only [List.mem_singleton] at hm'; subst hm'; simp [requestCode, reportCode, dataCode]
  · split at hm'
    · simp only [List.mem_singleton] at hm'; subst hm'; simp [orderCode, reportCode, dataCode]
    · split at hm'
      · simp only [List.mem_singleton] at hm'; subst hm'; simp [orderCode, reportCode, dataCode]
      · simp at hm'

theorem readable (o : Order) (r : Report) : contents.reported (contents.report o r) = (o, r) := by
  have h1 : contents.reported = Venue.contents.reported := by rw [contents]
  have h2 : contents.report = Venue.contents.report := by rw [contents]
  rw [h1, h2]
  exact contents_readable o r

theorem trading_publishes : Spec.Publishes contents read 0 trading where
  shuffles := fun _ _ _ l => List.Perm.refl l
  readable := readable
  exchange := fun r code hc => ⟨0, fun _ _ => 0, by simp [trading, hc]⟩
  others := fun r code hc e he => by simp [trading, hc] at he
  acts := fun r s m step => by simp [trading]
  replies := fun i hi r code e he => by simp [trading, hi] at he
  sends := fun i hi r s step m' hm' h => (trading_sends i r s step m' hm').1 h.1
  legible := contents_legible
  genuine := fun i r code hc e he => by
    unfold trading at he
    simp only at he
    split at he
    · rename_i h; exact absurd h.2 (hc h.1)
    · cases he
  genuineActs := fun i r s step m' hm' h => (trading_sends i r s step m' hm').2 h.1

theorem opening_start : Venue.Spec.Start 0 opening where
  ids := by unfold Sched.Spec.UniqueIds; decide
  log := rfl
  quiet := by
    intro a ha
    simp only [opening, List.mem_cons, List.not_mem_nil, or_false] at ha
    rcases ha with rfl | rfl | rfl | rfl <;> exact ⟨rfl, rfl⟩
  exchange := by
    refine ⟨_, List.mem_cons_self .., rfl, fun t b h => ?_⟩
    simp only [create, List.lookup] at h
    split at h
    · exact (Option.some.inj h).symm
    · cases h

/-- Market data of a run: recipient, time and what they show. -/
def shownIn (w : World (Desk Nat)) : List (Nat × Nat × Spec.Shown) :=
  ((Venue.Spec.sentIn w).filter fun m => m.type == dataCode).map fun m => (m.recipient, m.received, read m.payload)

/-- The market data of the run: the offer appears, then two units are bought. -/
example : (match runLoop trading 6 5 10 1 opening with
    | some (.ok (w', _)) => shownIn w'
    | _ => []) = [(3, 2, ⟨[], some 100, none, 7⟩), (3, 3, ⟨[(100, 2)], some 100, none, 7⟩)] := by decide +kernel

end Esl.Feed
