import Verif.Model.Notices
import Verif.Props.Serialization
import Verif.Props.Company
import Mathlib.Logic.Equiv.List
/-! C160: dividends that are announced to shareholders in other processes. -/
namespace Esl.Notices
open Esl.Archive Esl.Company

theorem flag_roundTrips (b : Bool) : Archive.Spec.RoundTrips flag b := by
  intro t rest
  cases b <;> simp [flag, readInt]

theorem real_roundTrips (q : Rat) : Archive.Spec.RoundTrips real q := by
  intro t rest
  simp [real, readInt, readNat, Rat.mkRat_self]

theorem class_roundTrips (s : ShareClass) : Archive.Spec.RoundTrips shareClass s := by
  intro t rest
  simp only [shareClass, List.append_assoc]
  rw [nat_roundTrips]; simp only [Outcome.bind_ok]
  rw [nat_roundTrips]; simp only [Outcome.bind_ok]
  rw [real_roundTrips]; simp only [Outcome.bind_ok]
  rw [flag_roundTrips]; simp only [Outcome.bind_ok]
  rw [flag_roundTrips]; simp only [Outcome.bind_ok]
  rw [flag_roundTrips]; simp only [Outcome.bind_ok]

/-- Entries whose contents become `f` of them when they are loaded into a blank one. -/
theorem loadEntries_save {β : Type} (c : Codec β) (blank : β) (f : β → β) (hf : ∀ x rest, c.load blank (c.save x ++ rest) = .ok (f x, rest)) (m : Register β) (before : Register β)
    (h : Company.Spec.Ascending (before ++ m)) (rest : List Item) :
    loadEntries c blank m.length before ((m.flatMap fun e => shareClass.save e.1 ++ c.save e.2) ++ rest) = .ok (before ++ m.map fun e => (e.1, f e.2), rest) := by
  induction m generalizing before with
  | nil => simp [loadEntries]
  | cons e m ih =>
    obtain ⟨s, x⟩ := e
    rw [List.length_cons, List.flatMap_cons, List.append_assoc, List.append_assoc, loadEntries, class_roundTrips]
    simp only [Outcome.bind_ok]
    rw [hf]
    simp only [Outcome.bind_ok]
    have hlast : ∀ e ∈ before, e.1.rank < s.rank := fun e he => (List.pairwise_append.1 h).2.2 e he (s, x) List.mem_cons_self
    rw [insert_last before s (f x) hlast, ih]
    · simp
    · unfold Company.Spec.Ascending at *
      have h1 := List.pairwise_append.1 h
      have h2 := List.pairwise_cons.1 h1.2.1
      rw [List.append_assoc]
      refine List.pairwise_append.2 ⟨h1.1, ?_, ?_⟩
      · exact List.pairwise_cons.2 ⟨fun a ha => h2.1 a ha, h2.2⟩
      · intro a ha b hb
        rcases List.mem_append.1 hb with hb | hb
        · rw [List.mem_singleton.1 hb]; exact hlast a ha
        · exact h1.2.2 a ha b (List.mem_cons_of_mem _ hb)

theorem register_load {β : Type} (c : Codec β) (blank : β) (f : β → β) (hf : ∀ x rest, c.load blank (c.save x ++ rest) = .ok (f x, rest)) (m : Register β) (h : Company.Spec.Ascending m)
    (target : Register β) (rest : List Item) :
    (registerCodec c blank).load target ((registerCodec c blank).save m ++ rest) = .ok (m.map fun e => (e.1, f e.2), rest) := by
  have : readNat (Item.int m.length :: ((m.flatMap fun e => shareClass.save e.1 ++ c.save e.2) ++ rest)) = .ok (m.length, (m.flatMap fun e => shareClass.save e.1 ++ c.save e.2) ++ rest) := by
    simp [readNat, readInt]
  simp only [registerCodec, List.cons_append, this, Outcome.bind_ok]
  rw [loadEntries_save c blank f hf m [] h]
  rfl

/-- **C160, share classes.** All share classes are given back. -/
theorem C160_class (s : ShareClass) : Archive.Spec.RoundTrips shareClass s := class_roundTrips s

example : shareClass.load blankClass (shareClass.save ⟨3, 0, 1 / 4, false, true, true⟩) = .ok (⟨3, 0, 1 / 4, false, true, true⟩, []) := by
  have := C160_class ⟨3, 0, 1 / 4, false, true, true⟩ blankClass []
  rwa [List.append_nil] at this

/-- **C160, records (partial).** What a shareholder states in a record is given back: the share classes with the numbers of shares, for all registers, as maps are, in the order of ranks. The header is that of the message into
which it is loaded, whoever sent the record. -/
theorem C160_record_partial (h target : Header) (m held : Register Nat) (hm : Company.Spec.Ascending m) (rest : List Item) :
    record.load (target, held) (record.save (h, m) ++ rest) = .ok ((target, m), rest) := by
  have := register_load natCodec 0 id (fun x rest => nat_roundTrips x 0 rest) m hm held rest
  simp only [record, this, Outcome.bind_ok]
  simp

example : Company.Spec.Ascending [(common, 7), ((⟨3, 0, 1 / 4, false, true, true⟩ : ShareClass), 9)] := by
  unfold Company.Spec.Ascending; decide

/-- What is left of a policy: all dates, the currency, the share classes and the number of shares of each. The dividends are zero, in no currency. -/
def Spec.withoutAmounts (p : DividendPolicy) : DividendPolicy := { p with perShare := p.perShare.map fun e => (e.1, e.2.1, ⟨0, ⟨['X', 'X', 'X'], 100⟩⟩) }

/-- **C160, announcements (partial).** Exactly this is received of each announcement, whatever message it is loaded into: the policy without the amounts, and the header that the message had. -/
theorem C160_announcement_partial (h : Header) (p : DividendPolicy) (hc : p.tender.code.length = 3) (hp : Company.Spec.Ascending p.perShare) (target : Header × DividendPolicy) (rest : List Item) :
    announcement.load target (announcement.save (h, p) ++ rest) = .ok ((target.1, Spec.withoutAmounts p), rest) := by
  have hr := register_load share (0, blankPrice) (fun x => (x.1, blankPrice)) (by
    intro x rest
    simp only [share, pair, List.append_assoc]
    rw [nat_roundTrips]
    simp [price, readText]) p.perShare hp target.2.perShare rest
  simp only [announcement, policy, List.append_assoc]
  rw [nat_roundTrips]; simp only [Outcome.bind_ok]
  rw [nat_roundTrips]; simp only [Outcome.bind_ok]
  rw [show p.period = (p.period.1, p.period.2) from rfl, C66_tuple _ _ _ _ (nat_roundTrips p.period.1) (nat_roundTrips p.period.2)]; simp only [Outcome.bind_ok]
  rw [nat_roundTrips]; simp only [Outcome.bind_ok]
  rw [(C66_jurisdiction [] p.tender hc).1]; simp only [Outcome.bind_ok]
  rw [hr]; simp only [Outcome.bind_ok]
  rfl

def usdPolicy : DividendPolicy := ⟨3, 8, (0, 30), 12, ⟨['U', 'S', 'D'], 100⟩, [(common, 1000, ⟨25, ⟨['U', 'S', 'D'], 100⟩⟩)]⟩

example : usdPolicy.tender.code.length = 3 ∧ Company.Spec.Ascending usdPolicy.perShare ∧ total usdPolicy = .ok ⟨25000, ⟨['U', 'S', 'D'], 100⟩⟩ := by
  unfold Company.Spec.Ascending; decide +kernel

/-- **C160 fails for amounts:** every policy with a dividend that is not zero differs from what is received, and whatever was announced, the total of the dividends is zero for the shareholder. -/
theorem C160_counterexample_amount (h : Header) (p : DividendPolicy) (hc : p.tender.code.length = 3) (hp : Company.Spec.Ascending p.perShare) (target : Header × DividendPolicy) (rest : List Item) :
    ∃ q, announcement.load target (announcement.save (h, p) ++ rest) = .ok ((target.1, q), rest) ∧ total q = .ok ⟨0, ⟨p.tender.code, p.tender.denominator⟩⟩ ∧
      ((∃ e ∈ p.perShare, e.2.2.value ≠ 0) → q ≠ p) := by
  refine ⟨_, C160_announcement_partial h p hc hp target rest, ?_, ?_⟩
  · simp only [total, totalDividends, Spec.withoutAmounts, List.map_map]
    generalize p.perShare = m
    induction m with
    | nil => rfl
    | cons e m ih =>
      simp only [List.map_cons, List.foldl_cons, Function.comp_apply, Outcome.bind_ok, amount, Int.zero_mul]
      rw [show wrapI64 0 = 0 from by decide, if_pos (by decide)]
      exact ih
  · rintro ⟨e, he, hv⟩ heq
    have h1 : p.perShare = p.perShare.map fun e => (e.1, e.2.1, (⟨0, ⟨['X', 'X', 'X'], 100⟩⟩ : Archive.Price)) := (congrArg DividendPolicy.perShare heq).symm
    rw [h1] at he
    obtain ⟨x, _, rfl⟩ := List.mem_map.1 he
    exact hv rfl

example : ∃ e ∈ usdPolicy.perShare, e.2.2.value ≠ 0 := ⟨_, List.mem_cons_self, by decide⟩

/-- **C160 fails for senders:** a shareholder who owns shares of the company, and receives the announcement in a step that contains the ex-dividend date, answers it with a record of these shares. If the announcement came from another process,
so that it was saved, and loaded into a new message, there is no record for any company. This is so for all companies (which have an identity that is not empty), holdings and policies, if the shareholder did not know of other dates. -/
theorem C160_counterexample_sender (number : List Nat → Nat) (hn : Function.Injective number) (issuer : List Nat) (hi : issuer ≠ []) (code : Nat) (receiver : List Nat) (sent received : Nat)
    (p : DividendPolicy) (hc : p.tender.code.length = 3) (hp : Company.Spec.Ascending p.perShare) (held : Register Nat) (lower upper : Nat) (h1 : lower ≤ p.exDividend) (h2 : p.exDividend ≤ upper) :
    (onAnnouncement number [] [(number issuer, held)] lower upper (⟨code, issuer, receiver, sent, received⟩, p)).2 = [⟨number issuer, 0, held⟩] ∧
    ∃ m, announcement.load (blankHeader code, blankPolicy) (announcement.save (⟨code, issuer, receiver, sent, received⟩, p)) = .ok (m, []) ∧
      (onAnnouncement number [] [(number issuer, held)] lower upper m).2 = [] := by
  constructor
  · simp [onAnnouncement, handleAnnouncement, datesInsert, submitRecords, h1, h2]
  · have := C160_announcement_partial ⟨code, issuer, receiver, sent, received⟩ p hc hp (blankHeader code, blankPolicy) []
    rw [List.append_nil] at this
    refine ⟨_, this, ?_⟩
    have hne : number issuer ≠ number [] := fun h => hi (hn h)
    simp [onAnnouncement, handleAnnouncement, datesInsert, submitRecords, blankHeader, hne]

example : ∃ number : List Nat → Nat, Function.Injective number := ⟨Encodable.encode, Encodable.encode_injective⟩

end Esl.Notices
