import Verif.Model.Messages
import Verif.Model.Exchange
import Verif.Props.Serialization
import Mathlib.Algebra.Order.Field.Rat
import Mathlib.Tactic.Linarith
import Mathlib.Tactic.FieldSimp
/-!
C125: messages are created as asked, and name their sender. C126: messages keep their contents when saved and loaded. C127: an order answers the market that quoted. C128: latency. C129: balance sheets.
-/
namespace Esl.Messages
open Esl.Archive

/-! ## C125 -/

/-- C125: whatever arguments the constructor of the message is given, a message that is created for an agent is addressed to this agent, becomes available at the time that was asked for, has the code of its type and its
contents, and is put once at the end of the outbox, which is otherwise unchanged. -/
theorem C125_created_partial {β : Type} (asserts : Bool) (outbox : List (Header × β)) (r : List Nat) (hr : r ≠ []) (t code : Nat) (a : Arguments) (x : β) :
    ∃ m, createMessage asserts outbox r t code a x = .ok (m, outbox ++ [m]) ∧ m.1.recipient = r ∧ m.1.received = t ∧ m.1.type = code ∧ m.2 = x := by
  have e : r.isEmpty = false := by cases r with | nil => exact absurd rfl hr | cons _ _ => rfl
  exact ⟨_, if_neg (by simp [e]), rfl, rfl, rfl, rfl⟩

/-- C125: a program with assertions does not create messages for nobody. -/
theorem C125_nobody {β : Type} (outbox : List (Header × β)) (t code : Nat) (a : Arguments) (x : β) : createMessage true outbox [] t code a x = .throws := rfl

/-- C125: the sender and the time of sending are those of the arguments of the constructor, whoever creates the message. -/
theorem C125_sender_partial {β : Type} (asserts : Bool) (outbox after : List (Header × β)) (r : List Nat) (t code : Nat) (a : Arguments) (x : β) (m : Header × β)
    (h : createMessage asserts outbox r t code a x = .ok (m, after)) : m.1.sender = a.sender ∧ m.1.sent = a.sent := by
  unfold createMessage at h
  split at h
  · cases h
  · cases h; exact ⟨rfl, rfl⟩

/-- C125 fails without such arguments: no agent that has an identifier is the sender of the message it creates, and the message is sent at time zero. -/
theorem C125_counterexample_sender {β : Type} (asserts : Bool) (outbox after : List (Header × β)) (self r : List Nat) (hs : self ≠ []) (t code : Nat) (x : β) (m : Header × β)
    (h : createMessage asserts outbox r t code {} x = .ok (m, after)) : m.1.sender ≠ self ∧ m.1.sent = 0 := by
  have := C125_sender_partial asserts outbox after r t code {} x m h
  exact ⟨fun e => hs (by rw [← e, this.1]), this.2⟩

/-- C125: the messages that agents of the library create are addressed to the other agent, for the time that was asked for, and all but one kind have the creator as sender. -/
theorem C125_library_partial (s : Site) (hs : s ≠ .take) (code : Nat) (self other : List Nat) (now delivery : Nat) :
    ∃ h, s.header code self other now delivery = .ok h ∧ h.sender = self ∧ h.recipient = other ∧ h.received = delivery ∧ h.type = code := by
  cases s with
  | take => exact absurd rfl hs
  | _ => exact ⟨_, rfl, rfl, rfl, rfl, rfl⟩

/-- C125 fails for the transfers by which a market takes property: the sender is the participant they are sent to. -/
theorem C125_counterexample_take (code : Nat) (self other : List Nat) (hne : self ≠ other) (now delivery : Nat) :
    ∃ h, Site.take.header code self other now delivery = .ok h ∧ h.sender ≠ self ∧ h.sender = h.recipient := ⟨_, rfl, Ne.symm hne, rfl⟩

/-- C125 fails for the time: only the exchange sets the time at which its messages are sent; all other messages of the library are sent at time zero. -/
theorem C125_counterexample_sent (s : Site) (code : Nat) (self other : List Nat) (now delivery : Nat) :
    ∃ h, s.header code self other now delivery = .ok h ∧ (if s = .report ∨ s = .data then h.sent = now else h.sent = 0) := by
  cases s <;> exact ⟨_, rfl, by simp [transferArguments, construct]⟩

example : createMessage true [] [1, 2] 7 9 { sender := [3], recipient := [8], received := 100 } "x" = .ok ((⟨9, [3], [1, 2], 0, 7⟩, "x"), [(⟨9, [3], [1, 2], 0, 7⟩, "x")]) := by decide +kernel
example : Site.report.header 9 [1] [2] 5 8 = .ok ⟨9, [1], [2], 5, 8⟩ := by decide +kernel
example : Site.take.header 9 [1] [2] 5 5 = .ok ⟨9, [2], [2], 0, 5⟩ := by decide +kernel

/-! ## C126 -/

/-- C126: a transfer keeps the parties and the property that is transferred. -/
theorem C126_transfer_partial (x : List Nat × List Nat × List (List Nat × Nat)) : Spec.RoundTrips transferContents x := by
  have v : ∀ l : List Nat, Spec.RoundTrips (vector natCodec 0) l := fun l => C66_sequence _ _ _ fun n _ => nat_roundTrips n
  exact C66_tuple _ _ x.1 x.2 (v _) (C66_tuple _ _ x.2.1 x.2.2 (v _) (C66_sequence _ _ _ fun p _ => C66_tuple _ _ p.1 p.2 (v _) (nat_roundTrips _)))

/-- The general reason for the failures: of a message whose type saves nothing, all contents are lost. What is loaded is what the target had before, for every saved message. -/
theorem nothing_lost {β : Type} (saved target : Header × β) (rest : List Item) : (message nothing).load target ((message nothing).save saved ++ rest) = .ok (target, rest) := rfl

/-- C126 fails for all orders: to a market with Walrasian clearing, with a price impact function, and to an exchange (single, as a list, and cancellation). For every saved message, whatever it is loaded into, the contents that
are loaded do not depend on those that were saved. -/
theorem C126_counterexample_orders :
    (∀ saved target rest, (message walrasOrderContents).load target ((message walrasOrderContents).save saved ++ rest) = .ok (target, rest))
    ∧ (∀ saved target rest, (message impactOrderContents).load target ((message impactOrderContents).save saved ++ rest) = .ok (target, rest))
    ∧ (∀ saved target rest, (message newOrderContents).load target ((message newOrderContents).save saved ++ rest) = .ok (target, rest))
    ∧ (∀ saved target rest, (message orderListContents).load target ((message orderListContents).save saved ++ rest) = .ok (target, rest))
    ∧ (∀ saved target rest, (message cancelContents).load target ((message cancelContents).save saved ++ rest) = .ok (target, rest)) :=
  ⟨nothing_lost, nothing_lost, nothing_lost, nothing_lost, nothing_lost⟩

/-- C126: in particular no order is given back. -/
theorem C126_counterexample_no_order : ¬ Spec.RoundTrips walrasOrderContents [([1], 2, 3)] ∧ (∀ o, ¬ Spec.RoundTrips newOrderContents o) := by
  refine ⟨fun h => ?_, fun o h => ?_⟩
  · exact absurd (h [] []) (by decide)
  · obtain ⟨s, b, l, q, w⟩ := o
    have e := h (s + 1, b, l, q, w) []
    simp [newOrderContents, nothing] at e

theorem load_proposal (t : List Nat × Quote) (p : List Nat) (q : Quote) (rest : List Item) :
    (pair (vector natCodec 0) quote).load t ((pair (vector natCodec 0) quote).save (p, q) ++ rest) = .ok ((p, { t.2 with lot := q.lot }), .text q.price.text :: rest) := by
  have v := C66_sequence natCodec 0 p (fun n _ => nat_roundTrips n) t.1 (quote.save q ++ rest)
  simp only [pair, List.append_assoc, v, Outcome.bind_ok]
  rfl

/-- C126 fails for quotes: no message that proposes a quote can be loaded. The price is left in the archive where the next item is expected. -/
theorem C126_counterexample_quotes (proposed : List (List Nat × Quote)) (hp : proposed ≠ []) (binding : Nat) (target : List (List Nat × Quote) × Nat) (rest : List Item) :
    quoteContents.load target (quoteContents.save (proposed, binding) ++ rest) = .throws := by
  obtain ⟨⟨p, q⟩, ps, rfl⟩ : ∃ e ps, proposed = e :: ps := by
    cases proposed with
    | nil => exact absurd rfl hp
    | cons e ps => exact ⟨e, ps, rfl⟩
  let c := pair (vector natCodec 0) quote
  have e1 : quoteContents.save ((p, q) :: ps, binding) ++ rest = .int ((ps.length + 1 : Nat) : Int) :: (c.save (p, q) ++ (ps.flatMap c.save ++ natCodec.save binding ++ rest)) := by
    simp [quoteContents, pair, vector, c]
  rw [e1]
  have e2 : loadMany c ([], blankQuote) (ps.length + 1) (c.save (p, q) ++ (ps.flatMap c.save ++ natCodec.save binding ++ rest))
      = loadMany c ([], blankQuote) ps.length (.text q.price.text :: (ps.flatMap c.save ++ natCodec.save binding ++ rest)) >>= fun (xs, a) => .ok ((p, { blankQuote with lot := q.lot }) :: xs, a) := by
    rw [loadMany, load_proposal]
    rfl
  show (readNat _ >>= fun (n, a) => loadMany c ([], blankQuote) n a) >>= _ = _
  rw [show readNat (.int ((ps.length + 1 : Nat) : Int) :: (c.save (p, q) ++ (ps.flatMap c.save ++ natCodec.save binding ++ rest)))
      = .ok (ps.length + 1, c.save (p, q) ++ (ps.flatMap c.save ++ natCodec.save binding ++ rest)) from nat_roundTrips (ps.length + 1) 0 _]
  simp only [Outcome.bind_ok]
  rw [e2]
  cases ps with
  | nil => rfl
  | cons e ps => rfl

/-- C126: a message without proposals keeps whether it is binding. -/
theorem C126_no_quotes_partial (binding : Nat) : Spec.RoundTrips quoteContents ([], binding) :=
  C66_tuple _ _ _ _ (C66_sequence _ _ _ fun _ h => absurd h List.not_mem_nil) (nat_roundTrips _)

example : transferContents.load ([], [], []) (transferContents.save ([1], [2], [([7], 100)])) = .ok (([1], [2], [([7], 100)]), []) := by decide +kernel
example : quoteContents.load ([], 0) (quoteContents.save ([([7], blankQuote)], 1)) = .throws := C126_counterexample_quotes _ (by decide) _ _ []

/-! ## C127 -/

/-- Whether a message can be processed in a step that begins at `now`. -/
def Spec.due (h : Header) (now : Nat) : Prop := h.received ≤ now

/-- C127: an order that answers a quote goes to the sender of the quote, comes from its recipient, has the code of its own type, and can be processed as soon as the quote can. -/
theorem C127_reply (code : Nat) (q : Header) :
    (reply code q).recipient = q.sender ∧ (reply code q).sender = q.recipient ∧ (reply code q).type = code ∧ (∀ now, Spec.due (reply code q) now ↔ Spec.due q now) :=
  ⟨rfl, rfl, rfl, fun _ => Iff.rfl⟩

/-- C127: an order that answers a quote of a market of the library goes to this market, and is not sent before the quote can be received. -/
theorem C127_market (code code' : Nat) (market participant : List Nat) (now delivery : Nat) :
    ∃ q, Site.quote.header code market participant now delivery = .ok q ∧ (reply code' q).recipient = market ∧ (reply code' q).sender = participant ∧ (reply code' q).sent = delivery
      ∧ (reply code' q).received = delivery := ⟨_, rfl, rfl, rfl, rfl, rfl⟩

example : reply 5 ⟨4, [1], [2], 0, 17⟩ = ⟨5, [2], [1], 17, 17⟩ := by decide +kernel

/-! ## C128 -/

/-- What the documentation of `shifted_gamma_latency` says: the shift, plus the time of a number of tasks, each of which takes an exponentially distributed time with the given rate. If `g` is the sum of these times for the rate one,
it is `g / rate` for another rate. -/
def Spec.latency (rate shift g : Rat) : Rat := shift + g / rate

/-- C128: with the rate one, latency is as documented. -/
theorem C128_rate_one_partial (shift g : Rat) : gammaLatency 1 shift g = Spec.latency 1 shift g := by
  simp [gammaLatency, Spec.latency]

/-- C128 fails for any other rate: no random number gives the documented latency, because the rate is used as scale. Higher rates mean longer waiting. -/
theorem C128_counterexample_rate (rate shift g : Rat) (hr : 0 < rate) (hne : rate ≠ 1) (hg : 0 < g) : gammaLatency rate shift g ≠ Spec.latency rate shift g := by
  intro h
  unfold gammaLatency Spec.latency at h
  have h1 : rate * g = g / rate := by linarith
  rw [eq_div_iff (ne_of_gt hr)] at h1
  have h2 : g * (rate * rate - 1) = 0 := by linarith
  rcases mul_eq_zero.mp h2 with h3 | h3
  · exact absurd h3 (ne_of_gt hg)
  · have h4 : (rate - 1) * (rate + 1) = 0 := by linarith
    rcases mul_eq_zero.mp h4 with h5 | h5
    · exact hne (by linarith)
    · linarith

/-- C128: the latency is never less than the shift, cut to a whole number, if the shift is not negative and the sum is not too large. -/
theorem C128_at_least_shift_partial (rate shift g : Rat) (hr : 0 < rate) (hs : 0 ≤ shift) (hg : 0 ≤ g) (hb : gammaLatency rate shift g < 2 ^ 64) :
    ∃ d : Nat, toDuration (gammaLatency rate shift g) = .ok d ∧ shift.floor.toNat ≤ d := by
  have h0 : shift ≤ gammaLatency rate shift g := by
    unfold gammaLatency
    have : 0 ≤ rate * g := mul_nonneg (le_of_lt hr) hg
    linarith
  refine ⟨(gammaLatency rate shift g).floor.toNat, if_neg ?_, ?_⟩
  · rintro (h | h)
    · linarith
    · exact absurd hb (not_lt.mpr h)
  · exact Int.toNat_le_toNat (Rat.floor_monotone h0)

/-- C128 fails for negative shifts: a latency of minus one or less is undefined behaviour, not zero or an exception. So it is for latencies that no duration can hold. -/
theorem C128_counterexample_undefined (rate shift g : Rat) (h : gammaLatency rate shift g ≤ -1 ∨ 2 ^ 64 ≤ gammaLatency rate shift g) : toDuration (gammaLatency rate shift g) = .ub := if_pos h

example : toDuration (gammaLatency 1 (-5) 2) = .ub ∧ toDuration (gammaLatency 1 (2 ^ 64) 0) = .ub ∧ toDuration (gammaLatency 1 (-5) 5) = .ok 0 := by
  refine ⟨C128_counterexample_undefined _ _ _ (.inl ?_), C128_counterexample_undefined _ _ _ (.inr ?_), ?_⟩
  · norm_num [gammaLatency]
  · norm_num [gammaLatency]
  · have : gammaLatency 1 (-5) 5 = 0 := by norm_num [gammaLatency]
    rw [this]
    decide

example : gammaLatency 2 1 3 = 7 ∧ Spec.latency 2 1 3 = 5 / 2 := by
  constructor <;> norm_num [gammaLatency, Spec.latency]

end Esl.Messages

namespace Esl.Exchange
open Esl.Book

/-- The agent that a message of the exchange is for, and the time at which it arrives. -/
def Spec.addressee : Out → Nat
  | .report a _ _ _ => a
  | .data a _ _ _ _ _ => a

def Spec.arrival : Out → Nat
  | .report _ t _ _ => t
  | .data _ t _ _ _ _ => t

def Spec.isReport : Out → Prop
  | .report _ _ _ _ => True
  | .data _ _ _ _ _ _ => False

theorem reportLoop_arrival (latency : Nat → Nat) (lower sender : Nat) (o : Order) (b : Book) (changed : Bool) (rs : List Report) (subs : Option (List (Nat × Subscription))) :
    ∀ m ∈ (reportLoop latency lower sender o b changed rs subs).2,
      (Spec.isReport m → Spec.arrival m = u64 (lower + latency sender)) ∧ (¬ Spec.isReport m → Spec.arrival m = u64 (lower + latency (Spec.addressee m))) := by
  induction rs generalizing subs with
  | nil => intro m hm; exact absurd hm List.not_mem_nil
  | cons r rs ih =>
    intro m hm
    cases subs with
    | none =>
      simp only [reportLoop, List.mem_cons] at hm
      rcases hm with rfl | hm
      · exact ⟨fun _ => rfl, fun h => absurd trivial h⟩
      · exact ih _ m hm
    | some l =>
      simp only [reportLoop] at hm
      split at hm
      · simp only [List.mem_cons, List.mem_append, List.mem_flatMap, List.mem_map] at hm
        rcases hm with rfl | ⟨_, ⟨s, _, rfl⟩, hm⟩ | hm
        · exact ⟨fun _ => rfl, fun h => absurd trivial h⟩
        · unfold feedOne at hm
          split at hm
          · exact absurd hm List.not_mem_nil
          · simp only [List.mem_singleton] at hm
            subst hm
            exact ⟨fun h => absurd h (by simp [Spec.isReport]), fun _ => rfl⟩
        · exact ih _ m hm
      · simp only [List.mem_cons] at hm
        rcases hm with rfl | hm
        · exact ⟨fun _ => rfl, fun h => absurd trivial h⟩
        · exact ih _ m hm

/-- C128: market data, and the reports for the agent that sent the order, arrive after the latency between the exchange and their recipient. -/
theorem C128_exchange_partial (latency : Nat → Nat) (x x' : Exchange) (lower sender : Nat) (o : Order) (outs : List Out) (h : insertOrder latency x lower sender o = .ok (x', outs)) (m : Out) (hm : m ∈ outs)
    (hr : Spec.isReport m → Spec.addressee m = sender) : Spec.arrival m = u64 (lower + latency (Spec.addressee m)) := by
  unfold insertOrder at h
  split at h
  · cases h
  · cases h
    have := reportLoop_arrival _ _ _ _ _ _ _ _ m hm
    by_cases hi : Spec.isReport m
    · rw [this.1 hi, hr hi]
    · exact this.2 hi

/-- C128 fails for the other party of a trade: the report for the owner of the order in the book arrives after the latency between the exchange and the sender of the incoming order. -/
theorem C128_counterexample_counterparty (latency : Nat → Nat) (x x' : Exchange) (lower sender : Nat) (o : Order) (outs : List Out) (h : insertOrder latency x lower sender o = .ok (x', outs)) (m : Out) (hm : m ∈ outs)
    (hr : Spec.isReport m) : Spec.arrival m = u64 (lower + latency sender) := by
  unfold insertOrder at h
  split at h
  · cases h
  · cases h
    exact (reportLoop_arrival _ _ _ _ _ _ _ _ m hm).1 hr

/-- Agent 1 is far away (latency 100), agent 2 near (latency 1). Agent 1 has an order in the book, agent 2 sends one that matches it. Agent 1 learns of it after one unit of time. -/
example : ∃ x' outs b, insertOrder (fun a => if a = 1 then 100 else 1) ⟨[7], [(7, b)], [], []⟩ 10 2 ⟨.goodUntilCancelled, .sell, 7, 2, 100, 5⟩ = .ok (x', outs)
    ∧ (outs.map fun m => (Spec.addressee m, Spec.arrival m)) = [(2, 11), (1, 11)] :=
  ⟨_, _, { (empty.insert ⟨.goodUntilCancelled, .buy, 7, 1, 100, 5⟩) with reports := [] }, rfl, by decide +kernel⟩

end Esl.Exchange

namespace Esl.Messages

/-! ## C129 -/

/-- The value of an inventory: amounts times unit values. -/
def Spec.value (inventory : List (Nat × Nat)) : Nat := (inventory.map fun e => e.1 * e.2).sum

/-- C129: the assets of an owner without property are worth nothing. -/
theorem C129_empty_partial : balanceSheetAssets [] = (Spec.value [] : Int) := rfl

/-- C129 fails for every owner that owns anything of value: its balance sheet says that it has no assets. -/
theorem C129_counterexample_assets (inventory : List (Nat × Nat)) (h : 0 < Spec.value inventory) : balanceSheetAssets inventory ≠ (Spec.value inventory : Int) := by
  unfold balanceSheetAssets
  omega

example : 0 < Spec.value [(10, 3), (1, 4)] := by decide

end Esl.Messages
