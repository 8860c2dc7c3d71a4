import Verif.Props.QuotedExchange
/-! # C187: whatever the quotes, every unit of every order is accounted for -/
namespace Esl.QUnits
open Esl.Price Esl.QBook
open Esl.Venue (total_nil total_cons total_append total_perm)
open Esl.Venue.Spec (total)

/-! ## Specification -/

/-- What owner `a` has submitted on side `s` to a book. -/
def Spec.submitted (a : Nat) (s : Side) (ops : List Op) : Nat :=
  total (ops.filterMap fun op => match op with | .insert o => some o | .cancel _ => none) (fun o => decide (o.owner = a ∧ o.side = s)) (·.quantity)

/-- What reports in state `st` tell owner `a` about side `s`. -/
def Spec.told (st : Status) (a : Nat) (s : Side) (rs : List Report) : Nat := total rs (fun r => decide (r.state = st ∧ r.owner = a ∧ r.side = s)) (·.quantity)

/-- What rests of the orders of owner `a` on side `s`. -/
def Spec.resting (a : Nat) (s : Side) (b : Book) : Nat := total (b.bids ++ b.asks) (fun e => decide (e.order.owner = a ∧ e.order.side = s)) (·.order.quantity)

/-- What is traded on side `s` at quote `p` according to reports. -/
def Spec.traded (p : Quote) (s : Side) (rs : List Report) : Nat := total rs (fun r => decide (r.state = .match_ ∧ r.limit = p ∧ r.side = s)) (·.quantity)

/-- No operation of the history ended with an exception. -/
def Spec.Smooth (ops : List Op) : Prop := ∀ pre op post, ops = pre ++ op :: post → ((run pre).apply op).2 = .ok ()

/-- What owner `a` has submitted on side `s` for symbol `t` to an exchange. -/
def Spec.ordered (t a : Nat) (s : Side) (es : List (Nat × QExchange.Event)) : Nat :=
  total (es.filterMap fun e => match e.2 with | .order _ o => some o | _ => none) (fun o => decide (o.symbol = t ∧ o.owner = a ∧ o.side = s)) (·.quantity)

/-- The execution reports about orders for symbol `t` that were sent to agent `a`. -/
def Spec.received (t a : Nat) (outs : List QExchange.Out) : List Report :=
  outs.filterMap fun m => match m with
    | .report recipient _ o r => if o.symbol = t ∧ recipient = a then some r else none
    | .data .. => none

/-- The execution reports about orders for symbol `t` that were sent. -/
def Spec.sent (t : Nat) (outs : List QExchange.Out) : List Report :=
  outs.filterMap fun m => match m with
    | .report _ _ o r => if o.symbol = t then some r else none
    | .data .. => none

/-- What reports in state `st` say about side `s`. -/
def Spec.said (st : Status) (s : Side) (rs : List Report) : Nat := total rs (fun r => decide (r.state = st ∧ r.side = s)) (·.quantity)

/-- The book of a symbol, which is empty when there is none. -/
def Spec.bookOf (x : QExchange.Venue) (t : Nat) : Book := (x.books.lookup t).getD empty

/-! ## Books -/

/-- Bids are orders to buy, asks are orders to sell. -/
def Sided (b : Book) : Prop := (∀ e ∈ b.bids, e.order.side = .buy) ∧ ∀ e ∈ b.asks, e.order.side = .sell

/-- What rests in one half. -/
def half (a : Nat) (s : Side) (l : List Entry) : Nat := total l (fun e => decide (e.order.owner = a ∧ e.order.side = s)) (·.order.quantity)

theorem half_append (a : Nat) (s : Side) (l m : List Entry) : half a s (l ++ m) = half a s l + half a s m := total_append ..

theorem half_nonzero (a : Nat) (s : Side) (l : List Entry) : half a s (l.filter fun e => decide (e.order.quantity ≠ 0)) = half a s l := by
  induction l with
  | nil => rfl
  | cons e l ih =>
    unfold half at ih ⊢
    by_cases h : e.order.quantity = 0
    · rw [List.filter_cons_of_neg (by simp [h]), ih, total_cons]
      simp [h]
    · rw [List.filter_cons_of_pos (by simp [h]), total_cons, total_cons, ih]

theorem half_resting (a : Nat) (s : Side) (m : Matched) : half a s m.resting = half a s m.passed + half a s m.rest := by
  unfold Matched.resting
  split
  · rw [half_append, half_nonzero]
  · rw [half_append]

/-- What matching takes from the orders is what it reports, also if it ends early. -/
theorem matchLoop_told (f : Quote → Outcome Bool) (o : Order) (a : Nat) (s : Side) (l : List Entry) (rem : Nat) :
    half a s l + (if o.owner = a ∧ o.side = s then rem else 0) =
      half a s (matchLoop f o rem l).passed + half a s (matchLoop f o rem l).rest + Spec.told .match_ a s (matchLoop f o rem l).reports + (if o.owner = a ∧ o.side = s then (matchLoop f o rem l).remainder else 0) := by
  induction l generalizing rem with
  | nil => simp [matchLoop, Spec.told, total_nil, half]
  | cons e l ih =>
    rw [matchLoop]
    have hnil : half a s [] = 0 := rfl
    have htold : Spec.told .match_ a s [] = 0 := rfl
    rcases f e.key with (_ | _) | _ | _
    · simp only [hnil, htold]; omega
    rotate_left
    · simp only [hnil, htold]; omega
    · simp only [hnil, htold]; omega
    · simp only
      have ih := ih (rem - min rem e.order.quantity)
      have hmin : min rem e.order.quantity ≤ rem ∧ min rem e.order.quantity ≤ e.order.quantity := by omega
      generalize min rem e.order.quantity = x at *
      by_cases h0 : x = 0
      · rw [if_pos h0]
        simp only [hnil, htold, h0, Nat.sub_zero]; omega
      · rw [if_neg h0]
        simp only
        unfold half Spec.told at *
        simp only [List.cons_append, List.nil_append, total_cons, true_and, decide_eq_true_eq] at *
        by_cases ho : o.owner = a ∧ o.side = s <;> by_cases he : e.order.owner = a ∧ e.order.side = s <;> simp only [ho, he, and_self, if_true, if_false] at ih ⊢ <;> omega

theorem matchLoop_sides (f : Quote → Outcome Bool) (o : Order) (side : Side) (l : List Entry) (h : ∀ e ∈ l, e.order.side = side) (rem : Nat) :
    ∀ e ∈ (matchLoop f o rem l).passed ++ (matchLoop f o rem l).rest, e.order.side = side := by
  induction l generalizing rem with
  | nil => simp [matchLoop]
  | cons e l ih =>
    have ih := ih (fun e he => h e (List.mem_cons_of_mem _ he))
    have he := h e (List.mem_cons_self ..)
    rw [matchLoop]
    split
    · simpa using h
    · simpa using h
    · simpa using h
    · simp only
      split
      · simpa using h
      · intro x hx
        simp only [List.cons_append, List.mem_cons] at hx
        rcases hx with rfl | hx
        · exact he
        · exact ih _ x hx

/-- Matching reports the same on both sides, at every quote. -/
theorem matchLoop_traded (f : Quote → Outcome Bool) (o : Order) (p : Quote) (l : List Entry) (h : ∀ e ∈ l, e.order.side ≠ o.side) (rem : Nat) :
    Spec.traded p .buy (matchLoop f o rem l).reports = Spec.traded p .sell (matchLoop f o rem l).reports := by
  induction l generalizing rem with
  | nil => rfl
  | cons e l ih =>
    have ih := ih (fun e he => h e (List.mem_cons_of_mem _ he))
    have he := h e (List.mem_cons_self ..)
    rw [matchLoop]
    split
    · rfl
    · rfl
    · rfl
    · simp only
      split
      · rfl
      · have ih := ih (rem - min rem e.order.quantity)
        unfold Spec.traded at ih ⊢
        simp only [List.cons_append, List.nil_append, total_cons, true_and, decide_eq_true_eq]
        rw [ih]
        cases h1 : o.side <;> cases h2 : e.order.side <;> simp_all

theorem matchLoop_only (f : Quote → Outcome Bool) (o : Order) (l : List Entry) (rem : Nat) : ∀ r ∈ (matchLoop f o rem l).reports, r.state = .match_ := by
  induction l generalizing rem with
  | nil => simp [matchLoop]
  | cons e l ih =>
    rw [matchLoop]
    split
    · simp
    · simp
    · simp
    · simp only
      split
      · simp
      · intro r hr
        simp only [List.cons_append, List.nil_append, List.mem_cons] at hr
        rcases hr with rfl | rfl | hr
        · rfl
        · rfl
        · exact ih _ r hr

theorem told_append (st : Status) (a : Nat) (s : Side) (l m : List Report) : Spec.told st a s (l ++ m) = Spec.told st a s l + Spec.told st a s m := total_append ..

theorem traded_append (p : Quote) (s : Side) (l m : List Report) : Spec.traded p s (l ++ m) = Spec.traded p s l + Spec.traded p s m := total_append ..

theorem told_none (st : Status) (a : Nat) (s : Side) (rs : List Report) (h : ∀ r ∈ rs, r.state ≠ st) : Spec.told st a s rs = 0 := by
  induction rs with
  | nil => rfl
  | cons r rs ih =>
    have h1 := h r (List.mem_cons_self ..)
    have h2 := ih fun r hr => h r (List.mem_cons_of_mem _ hr)
    unfold Spec.told at h2 ⊢
    rw [total_cons, h2]
    simp [h1]

theorem traded_none (p : Quote) (s : Side) (rs : List Report) (h : ∀ r ∈ rs, r.state ≠ .match_) : Spec.traded p s rs = 0 := by
  induction rs with
  | nil => rfl
  | cons r rs ih =>
    have h1 := h r (List.mem_cons_self ..)
    have h2 := ih fun r hr => h r (List.mem_cons_of_mem _ hr)
    unfold Spec.traded at h2 ⊢
    rw [total_cons, h2]
    simp [h1]

theorem emplace_perm (f : Quote → Quote → Outcome Bool) (e : Entry) (l l' : List Entry) (h : emplace f e l = .ok l') : l'.Perm (e :: l) := by
  induction l generalizing l' with
  | nil => simp only [emplace, Outcome.ok.injEq] at h; subst h; exact .refl _
  | cons x l ih =>
    rw [emplace] at h
    split at h
    · cases h
    · cases h
    · simp only [Outcome.ok.injEq] at h; subst h; exact .refl _
    · split at h
      · cases h
      · cases h
      · rename_i l2 h2
        simp only [Outcome.ok.injEq] at h
        subst h
        exact ((ih _ h2).cons x).trans (.swap ..)

theorem resting_halves (a : Nat) (s : Side) (b : Book) : Spec.resting a s b = half a s b.bids + half a s b.asks := total_append ..

/-- One insertion. -/
theorem insert_told (b : Book) (o : Order) (hb : Sided b) : Sided (b.insert o).1 ∧ ∃ new, (b.insert o).1.reports = b.reports ++ new ∧
    (∀ a s, Spec.resting a s (b.insert o).1 + Spec.told .match_ a s new ≤ Spec.resting a s b + (if o.owner = a ∧ o.side = s then o.quantity else 0)) ∧
    ((b.insert o).2 = .ok () → ∀ a s, Spec.resting a s (b.insert o).1 + Spec.told .match_ a s new = Spec.resting a s b + (if o.owner = a ∧ o.side = s then o.quantity else 0)) ∧
    (∀ r ∈ new, r.state ≠ .cancel) ∧ ∀ p, Spec.traded p .buy new = Spec.traded p .sell new := by
  unfold Book.insert
  cases hs : o.side with
  | buy =>
    have h1 := fun a s => matchLoop_told (fun k => Quote.ge o.limit k) o a s b.asks o.quantity
    have h2 : ∀ e ∈ (matchLoop (fun k => Quote.ge o.limit k) o o.quantity b.asks).resting, e.order.side = .sell := fun e he => matchLoop_sides _ o .sell b.asks hb.2 o.quantity e (resting_mem _ e he)
    have h3 := fun p => matchLoop_traded (fun k => Quote.ge o.limit k) o p b.asks (fun e he => by rw [hb.2 e he, hs]; simp) o.quantity
    have h4 := matchLoop_only (fun k => Quote.ge o.limit k) o b.asks o.quantity
    simp only [hs] at h1
    generalize matchLoop (fun k => Quote.ge o.limit k) o o.quantity b.asks = m at *
    have early : ∀ (out : Outcome Unit) (b' : Book), b'.bids = b.bids → b'.asks = m.resting → b'.reports = b.reports ++ m.reports → (out = .ok () → m.remainder = 0) →
        Sided b' ∧ ∃ new, b'.reports = b.reports ++ new ∧ (∀ a s, Spec.resting a s b' + Spec.told .match_ a s new ≤ Spec.resting a s b + (if o.owner = a ∧ (.buy : Side) = s then o.quantity else 0)) ∧
        (out = .ok () → ∀ a s, Spec.resting a s b' + Spec.told .match_ a s new = Spec.resting a s b + (if o.owner = a ∧ (.buy : Side) = s then o.quantity else 0)) ∧
        (∀ r ∈ new, r.state ≠ .cancel) ∧ ∀ p, Spec.traded p .buy new = Spec.traded p .sell new := by
      intro out b' e1 e2 e3 hout
      refine ⟨⟨by rw [e1]; exact hb.1, by rw [e2]; exact h2⟩, m.reports, e3, fun a s => ?_, fun ho a s => ?_, fun r hr => by rw [h4 r hr]; simp, h3⟩
      · have := h1 a s
        rw [resting_halves, resting_halves, e1, e2, half_resting]
        omega
      · have := h1 a s
        rw [hout ho, ite_self] at this
        rw [resting_halves, resting_halves, e1, e2, half_resting]
        omega
    simp only
    rcases m.outcome with _ | _ | _
    rotate_left
    · exact early .throws _ rfl rfl rfl (by simp)
    · exact early .ub _ rfl rfl rfl (by simp)
    · simp only
      by_cases hrem : m.remainder > 0
      · simp only [if_pos hrem]
        rcases hl : emplace Quote.gt (placed b o m.remainder).1 b.bids with l | _ | _
        rotate_left
        · exact early .throws _ rfl rfl rfl (by simp)
        · exact early .ub _ rfl rfl rfl (by simp)
        · have hp := emplace_perm _ _ _ _ hl
          have hsum : ∀ a s, Spec.resting a s { b with next := u64 (b.next + 1), limits := mapEmplace b.next o.limit (eraseLimits m.erased b.limits), bids := l, asks := m.resting, reports := b.reports ++ m.reports ++ [(placed b o m.remainder).2] } + Spec.told .match_ a s (m.reports ++ [(placed b o m.remainder).2]) =
              Spec.resting a s b + (if o.owner = a ∧ (.buy : Side) = s then o.quantity else 0) := by
            intro a s
            have := h1 a s
            have hh : half a s l = (if o.owner = a ∧ o.side = s then m.remainder else 0) + half a s b.bids := by
              unfold half
              rw [total_perm hp, total_cons]
              by_cases hx : o.owner = a ∧ o.side = s
              · simp only [placed, hx, and_self, decide_true, if_true]
              · simp only [placed, hx, decide_false, Bool.false_eq_true, if_false]
            rw [hs] at hh
            rw [resting_halves, resting_halves, told_append, told_none .match_ a s [(placed b o m.remainder).2] (by simp [placed])]
            simp only [half_resting, hh]
            omega
          refine ⟨⟨fun e he => ?_, h2⟩, _, List.append_assoc .., fun a s => Nat.le_of_eq (hsum a s), fun _ a s => hsum a s, fun r hr => ?_, fun p => ?_⟩
          · rcases List.mem_cons.1 (hp.mem_iff.1 he) with rfl | he
            · exact hs
            · exact hb.1 e he
          · rcases List.mem_append.1 hr with hr | hr
            · rw [h4 r hr]; simp
            · rw [List.mem_singleton.1 hr]; simp [placed]
          · rw [traded_append, traded_append, h3, traded_none p _ [(placed b o m.remainder).2] (by simp [placed]), traded_none p _ [(placed b o m.remainder).2] (by simp [placed])]
      · rw [if_neg hrem]
        exact early (.ok ()) { b with limits := eraseLimits m.erased b.limits, asks := m.resting, reports := b.reports ++ m.reports } rfl rfl rfl (fun _ => by omega)
  | sell =>
    have h1 := fun a s => matchLoop_told (fun k => Quote.le o.limit k) o a s b.bids o.quantity
    have h2 : ∀ e ∈ (matchLoop (fun k => Quote.le o.limit k) o o.quantity b.bids).resting, e.order.side = .buy := fun e he => matchLoop_sides _ o .buy b.bids hb.1 o.quantity e (resting_mem _ e he)
    have h3 := fun p => matchLoop_traded (fun k => Quote.le o.limit k) o p b.bids (fun e he => by rw [hb.1 e he, hs]; simp) o.quantity
    have h4 := matchLoop_only (fun k => Quote.le o.limit k) o b.bids o.quantity
    simp only [hs] at h1
    generalize matchLoop (fun k => Quote.le o.limit k) o o.quantity b.bids = m at *
    have early : ∀ (out : Outcome Unit) (b' : Book), b'.asks = b.asks → b'.bids = m.resting → b'.reports = b.reports ++ m.reports → (out = .ok () → m.remainder = 0) →
        Sided b' ∧ ∃ new, b'.reports = b.reports ++ new ∧ (∀ a s, Spec.resting a s b' + Spec.told .match_ a s new ≤ Spec.resting a s b + (if o.owner = a ∧ (.sell : Side) = s then o.quantity else 0)) ∧
        (out = .ok () → ∀ a s, Spec.resting a s b' + Spec.told .match_ a s new = Spec.resting a s b + (if o.owner = a ∧ (.sell : Side) = s then o.quantity else 0)) ∧
        (∀ r ∈ new, r.state ≠ .cancel) ∧ ∀ p, Spec.traded p .buy new = Spec.traded p .sell new := by
      intro out b' e1 e2 e3 hout
      refine ⟨⟨by rw [e2]; exact h2, by rw [e1]; exact hb.2⟩, m.reports, e3, fun a s => ?_, fun ho a s => ?_, fun r hr => by rw [h4 r hr]; simp, h3⟩
      · have := h1 a s
        rw [resting_halves, resting_halves, e1, e2, half_resting]
        omega
      · have := h1 a s
        rw [hout ho, ite_self] at this
        rw [resting_halves, resting_halves, e1, e2, half_resting]
        omega
    simp only
    rcases m.outcome with _ | _ | _
    rotate_left
    · exact early .throws _ rfl rfl rfl (by simp)
    · exact early .ub _ rfl rfl rfl (by simp)
    · simp only
      by_cases hrem : m.remainder > 0
      · simp only [if_pos hrem]
        rcases hl : emplace Quote.lt (placed b o m.remainder).1 b.asks with l | _ | _
        rotate_left
        · exact early .throws _ rfl rfl rfl (by simp)
        · exact early .ub _ rfl rfl rfl (by simp)
        · have hp := emplace_perm _ _ _ _ hl
          have hsum : ∀ a s, Spec.resting a s { b with next := u64 (b.next + 1), limits := mapEmplace b.next o.limit (eraseLimits m.erased b.limits), bids := m.resting, asks := l, reports := b.reports ++ m.reports ++ [(placed b o m.remainder).2] } + Spec.told .match_ a s (m.reports ++ [(placed b o m.remainder).2]) =
              Spec.resting a s b + (if o.owner = a ∧ (.sell : Side) = s then o.quantity else 0) := by
            intro a s
            have := h1 a s
            have hh : half a s l = (if o.owner = a ∧ o.side = s then m.remainder else 0) + half a s b.asks := by
              unfold half
              rw [total_perm hp, total_cons]
              by_cases hx : o.owner = a ∧ o.side = s
              · simp only [placed, hx, and_self, decide_true, if_true]
              · simp only [placed, hx, decide_false, Bool.false_eq_true, if_false]
            rw [hs] at hh
            rw [resting_halves, resting_halves, told_append, told_none .match_ a s [(placed b o m.remainder).2] (by simp [placed])]
            simp only [half_resting, hh]
            omega
          refine ⟨⟨h2, fun e he => ?_⟩, _, List.append_assoc .., fun a s => Nat.le_of_eq (hsum a s), fun _ a s => hsum a s, fun r hr => ?_, fun p => ?_⟩
          · rcases List.mem_cons.1 (hp.mem_iff.1 he) with rfl | he
            · exact hs
            · exact hb.2 e he
          · rcases List.mem_append.1 hr with hr | hr
            · rw [h4 r hr]; simp
            · rw [List.mem_singleton.1 hr]; simp [placed]
          · rw [traded_append, traded_append, h3, traded_none p _ [(placed b o m.remainder).2] (by simp [placed]), traded_none p _ [(placed b o m.remainder).2] (by simp [placed])]
      · rw [if_neg hrem]
        exact early (.ok ()) { b with limits := eraseLimits m.erased b.limits, bids := m.resting, reports := b.reports ++ m.reports } rfl rfl rfl (fun _ => by omega)

theorem cancelIn_told (f : Quote → Quote → Outcome Bool) (side : Side) (p : Quote) (i : Nat) (l l' : List Entry) (rs : List Report) (hc : cancelIn f side p i l = .ok (l', rs)) (h : ∀ e ∈ l, e.order.side = side) :
    (∀ a s, half a s l = half a s l' + Spec.told .cancel a s rs) ∧ (∀ e ∈ l', e ∈ l) ∧ ∀ r ∈ rs, r.state = .cancel := by
  induction l generalizing l' rs with
  | nil =>
    simp only [cancelIn, Outcome.ok.injEq, Prod.mk.injEq] at hc
    obtain ⟨rfl, rfl⟩ := hc
    exact ⟨fun a s => rfl, by simp, by simp⟩
  | cons e l ih =>
    have he := h e (List.mem_cons_self ..)
    rw [cancelIn] at hc
    split at hc
    · cases hc
    · cases hc
    · split at hc
      · simp only [Outcome.ok.injEq, Prod.mk.injEq] at hc
        obtain ⟨rfl, rfl⟩ := hc
        refine ⟨fun a s => ?_, fun x hx => List.mem_cons_of_mem _ hx, by simp⟩
        unfold half Spec.told
        simp only [total_cons, total_nil, true_and, decide_eq_true_eq, he]
        omega
      · split at hc
        · cases hc
        · cases hc
        · rename_i l2 r2 h2
          simp only [Outcome.ok.injEq, Prod.mk.injEq] at hc
          obtain ⟨rfl, rfl⟩ := hc
          obtain ⟨i1, i2, i3⟩ := ih _ _ h2 fun e he => h e (List.mem_cons_of_mem _ he)
          refine ⟨fun a s => ?_, fun x hx => ?_, i3⟩
          · have := i1 a s
            unfold half at this ⊢
            simp only [total_cons]
            omega
          · rcases List.mem_cons.1 hx with rfl | hx
            · exact List.mem_cons_self ..
            · exact List.mem_cons_of_mem _ (i2 x hx)

/-- One cancellation. -/
theorem cancel_told (b : Book) (i : Nat) (hb : Sided b) : Sided (b.cancel i).1 ∧ ∃ new, (b.cancel i).1.reports = b.reports ++ new ∧
    (∀ a s, Spec.resting a s b = Spec.resting a s (b.cancel i).1 + Spec.told .cancel a s new) ∧ ∀ r ∈ new, r.state = .cancel := by
  have none : Sided b ∧ ∃ new, b.reports = b.reports ++ new ∧ (∀ a s, Spec.resting a s b = Spec.resting a s b + Spec.told .cancel a s new) ∧ ∀ r ∈ new, r.state = .cancel :=
    ⟨hb, [], by simp, fun a s => by simp [Spec.told, total_nil], by simp⟩
  unfold Book.cancel
  split
  · exact none
  · rename_i p _
    split
    · exact none
    · exact none
    · split
      · exact none
      · exact none
      · rename_i l rs hc
        obtain ⟨h1, h2, h3⟩ := cancelIn_told _ .buy p i _ _ _ hc hb.1
        refine ⟨⟨fun e he => hb.1 e (h2 e he), hb.2⟩, _, rfl, fun a s => ?_, h3⟩
        have := h1 a s
        rw [resting_halves, resting_halves]
        simp only
        omega
    · split
      · exact none
      · exact none
      · split
        · exact none
        · exact none
        · rename_i l rs hc
          obtain ⟨h1, h2, h3⟩ := cancelIn_told _ .sell p i _ _ _ hc hb.2
          refine ⟨⟨hb.1, fun e he => hb.2 e (h2 e he)⟩, _, rfl, fun a s => ?_, h3⟩
          have := h1 a s
          rw [resting_halves, resting_halves]
          simp only
          omega
      · exact none

theorem sided_run (ops : List Op) : Sided (run ops) := by
  induction ops using List.reverseRecOn with
  | nil => simp [Sided, run, empty]
  | append_singleton ops op ih =>
    rw [run_snoc]
    cases op with
    | insert o => exact (insert_told _ o ih).1
    | cancel i => exact (cancel_told _ i ih).1

theorem submitted_snoc (a : Nat) (s : Side) (ops : List Op) (op : Op) : Spec.submitted a s (ops ++ [op]) = Spec.submitted a s ops + Spec.submitted a s [op] := by
  unfold Spec.submitted
  rw [List.filterMap_append, total_append]

/-- **C187 for a book.** In any history of a new book, whatever the quotes of the orders, and also if operations end with exceptions that the caller catches: for every owner and side, reported executions, reported cancellations and what rests are together at most what was submitted. -/
theorem C187_book (ops : List Op) (a : Nat) (s : Side) :
    Spec.told .match_ a s (run ops).reports + Spec.told .cancel a s (run ops).reports + Spec.resting a s (run ops) ≤ Spec.submitted a s ops := by
  induction ops using List.reverseRecOn with
  | nil => exact Nat.le_refl _
  | append_singleton ops op ih =>
    rw [run_snoc, submitted_snoc]
    cases op with
    | insert o =>
      obtain ⟨-, new, h2, h3, -, h4, -⟩ := insert_told (run ops) o (sided_run ops)
      have := h3 a s
      have hz := told_none .cancel a s new h4
      have ho : Spec.submitted a s [.insert o] = if o.owner = a ∧ o.side = s then o.quantity else 0 := by simp [Spec.submitted, total_cons, total_nil]
      simp only [Book.apply]
      rw [h2, told_append, told_append, ho]
      omega
    | cancel i =>
      obtain ⟨-, new, h2, h3, h4⟩ := cancel_told (run ops) i (sided_run ops)
      have := h3 a s
      have hz := told_none .match_ a s new fun r hr => by rw [h4 r hr]; simp
      simp only [Book.apply]
      rw [h2, told_append, told_append]
      have ho : Spec.submitted a s [.cancel i] = 0 := rfl
      omega

/-- **C187 for a book without exceptions.** If no operation ended with an exception then nothing is lost: whatever the quotes, for every owner and side, what was submitted is what the reports say was executed, plus what they say was cancelled, plus what rests. -/
theorem C187_book_smooth (ops : List Op) (hs : Spec.Smooth ops) (a : Nat) (s : Side) :
    Spec.submitted a s ops = Spec.told .match_ a s (run ops).reports + Spec.told .cancel a s (run ops).reports + Spec.resting a s (run ops) := by
  induction ops using List.reverseRecOn with
  | nil => rfl
  | append_singleton ops op ih =>
    have ih := ih fun pre op' post h => hs pre op' (post ++ [op]) (by rw [h]; simp)
    have hok := hs ops op [] rfl
    rw [run_snoc, submitted_snoc]
    cases op with
    | insert o =>
      obtain ⟨-, new, h2, -, h3, h4, -⟩ := insert_told (run ops) o (sided_run ops)
      have := h3 hok a s
      have hz := told_none .cancel a s new h4
      have ho : Spec.submitted a s [.insert o] = if o.owner = a ∧ o.side = s then o.quantity else 0 := by simp [Spec.submitted, total_cons, total_nil]
      simp only [Book.apply]
      rw [h2, told_append, told_append, ho]
      omega
    | cancel i =>
      obtain ⟨-, new, h2, h3, h4⟩ := cancel_told (run ops) i (sided_run ops)
      have := h3 a s
      have hz := told_none .match_ a s new fun r hr => by rw [h4 r hr]; simp
      simp only [Book.apply]
      rw [h2, told_append, told_append]
      have ho : Spec.submitted a s [.cancel i] = 0 := rfl
      omega

/-- **C187, both sides.** In any history of a new book, whatever the quotes and exceptions, at every quote, as much is reported bought as is reported sold. -/
theorem C187_sides (ops : List Op) (p : Quote) : Spec.traded p .buy (run ops).reports = Spec.traded p .sell (run ops).reports := by
  induction ops using List.reverseRecOn with
  | nil => rfl
  | append_singleton ops op ih =>
    rw [run_snoc]
    cases op with
    | insert o =>
      obtain ⟨-, new, h2, -, -, -, h5⟩ := insert_told (run ops) o (sided_run ops)
      simp only [Book.apply]
      rw [h2, traded_append, traded_append, ih, h5]
    | cancel i =>
      obtain ⟨-, new, h2, -, h4⟩ := cancel_told (run ops) i (sided_run ops)
      simp only [Book.apply]
      rw [h2, traded_append, traded_append, ih, traded_none p _ new fun r hr => by rw [h4 r hr]; simp, traded_none p _ new fun r hr => by rw [h4 r hr]; simp]

/-- Orders for ten units and for one unit, in dollars: agent 1 sells 5 lots, agent 2 bids with another lot and is served, agent 1 withdraws the rest. No exception, and 5 = 2 + 3. -/
example : let ops : List Op := [.insert (order .sell 1 10 1000 5), .insert (order .buy 2 1 20000 2), .cancel 0]
    Spec.submitted 1 .sell ops = 5 ∧ Spec.told .match_ 1 .sell (run ops).reports = 2 ∧ Spec.told .cancel 1 .sell (run ops).reports = 3 ∧ Spec.resting 1 .sell (run ops) = 0 ∧
    Spec.traded ⟨10, ⟨1000, usd⟩⟩ .buy (run ops).reports = 2 ∧ (∀ k < 3, ((run (ops.take k)).apply (ops.getD k (.cancel 0))).2 = .ok ()) := by decide +kernel

/-! ## Exchanges -/

theorem reportLoop_sent (latency : Nat → Nat) (lower sender : Nat) (o : Order) (b : Book) (ask₀ bid₀ : Option Quote) (rs : List Report) (subs : Option (List (Nat × Exchange.Subscription))) (r : Option (List (Nat × Exchange.Subscription)) × List QExchange.Out)
    (h : QExchange.reportLoop latency lower sender o b ask₀ bid₀ rs subs = .ok r) (t : Nat) :
    Spec.sent t r.2 = (if o.symbol = t then rs else []) ∧ ∀ a, Spec.received t a r.2 = if o.symbol = t then rs.filter (fun r => decide (r.owner = a)) else [] := by
  have hfeed : ∀ (l : List (Nat × Exchange.Subscription)) (trade : Bool) (q : Report) (m : QExchange.Out), m ∈ (l.map (QExchange.feedOne latency lower o.symbol b trade q)).flatMap (·.2) → ∃ a t s tr x y, m = .data a t s tr x y := by
    intro l trade q m hm
    obtain ⟨f, hf, hm⟩ := List.mem_flatMap.1 hm
    obtain ⟨s, -, rfl⟩ := List.mem_map.1 hf
    unfold QExchange.feedOne at hm
    split at hm
    · cases hm
    · rw [List.mem_singleton.1 hm]
      exact ⟨_, _, _, _, _, _, rfl⟩
  have hsent : ∀ ms : List QExchange.Out, (∀ m ∈ ms, ∃ a t s tr x y, m = .data a t s tr x y) → Spec.sent t ms = [] ∧ ∀ a, Spec.received t a ms = [] := by
    intro ms hms
    refine ⟨List.filterMap_eq_nil_iff.2 fun m hm => ?_, fun a => List.filterMap_eq_nil_iff.2 fun m hm => ?_⟩
    · obtain ⟨_, _, _, _, _, _, rfl⟩ := hms m hm; rfl
    · obtain ⟨_, _, _, _, _, _, rfl⟩ := hms m hm; rfl
  have happ : ∀ l m, Spec.sent t (l ++ m) = Spec.sent t l ++ Spec.sent t m ∧ ∀ a, Spec.received t a (l ++ m) = Spec.received t a l ++ Spec.received t a m :=
    fun l m => ⟨List.filterMap_append .., fun a => List.filterMap_append ..⟩
  have hcons : ∀ (q : Report) (at' : Nat) (ms : List QExchange.Out) (rs : List Report), (Spec.sent t ms = (if o.symbol = t then rs else []) ∧ ∀ a, Spec.received t a ms = if o.symbol = t then rs.filter (fun r => decide (r.owner = a)) else []) →
      Spec.sent t (.report q.owner at' o q :: ms) = (if o.symbol = t then q :: rs else []) ∧ ∀ a, Spec.received t a (.report q.owner at' o q :: ms) = if o.symbol = t then (q :: rs).filter (fun r => decide (r.owner = a)) else [] := by
    intro q at' ms rs ⟨e1, e2⟩
    by_cases ht : o.symbol = t
    · refine ⟨?_, fun a => ?_⟩
      · rw [if_pos ht] at e1 ⊢
        rw [← e1]
        simp [Spec.sent, ht]
      · have e2 := e2 a
        rw [if_pos ht] at e2 ⊢
        by_cases ha : q.owner = a
        · rw [List.filter_cons_of_pos (by simp [ha]), ← e2]
          simp [Spec.received, ht, ha]
        · rw [List.filter_cons_of_neg (by simp [ha]), ← e2]
          simp [Spec.received, ha]
    · refine ⟨?_, fun a => ?_⟩
      · rw [if_neg ht] at e1 ⊢
        rw [← e1]
        simp [Spec.sent, ht]
      · have e2 := e2 a
        rw [if_neg ht] at e2 ⊢
        rw [← e2]
        simp [Spec.received, ht]
  induction rs generalizing subs r with
  | nil =>
    simp only [QExchange.reportLoop, Outcome.ok.injEq] at h
    subst h
    simp [Spec.sent, Spec.received]
  | cons q rs ih =>
    cases subs with
    | none =>
      simp only [QExchange.reportLoop] at h
      cases hr : QExchange.reportLoop latency lower sender o b ask₀ bid₀ rs none with
      | throws => rw [hr] at h; cases h
      | ub => rw [hr] at h; cases h
      | ok r2 =>
        rw [hr] at h
        simp only [Outcome.bind_ok, Outcome.ok.injEq] at h
        subst h
        exact hcons q _ _ _ (ih none r2 hr)
    | some l =>
      simp only [QExchange.reportLoop] at h
      cases hch : QExchange.changed ask₀ bid₀ b with
      | throws => rw [hch] at h; cases h
      | ub => rw [hch] at h; cases h
      | ok c =>
        rw [hch, Outcome.bind_ok] at h
        split at h
        · generalize hr : QExchange.reportLoop latency lower sender o b ask₀ bid₀ rs _ = res at h
          cases res with
          | throws => cases h
          | ub => cases h
          | ok r2 =>
            simp only [Outcome.bind_ok, Outcome.ok.injEq] at h
            subst h
            have hd := hsent _ (hfeed l (decide (q.state = .match_)) q)
            refine hcons q _ _ _ ?_
            have i := ih _ r2 hr
            refine ⟨by rw [(happ _ _).1, hd.1, List.nil_append]; exact i.1, fun a => by rw [(happ _ _).2, hd.2, List.nil_append]; exact i.2 a⟩
        · cases hr : QExchange.reportLoop latency lower sender o b ask₀ bid₀ rs (some l) with
          | throws => rw [hr] at h; cases h
          | ub => rw [hr] at h; cases h
          | ok r2 =>
            rw [hr] at h
            simp only [Outcome.bind_ok, Outcome.ok.injEq] at h
            subst h
            exact hcons q _ _ _ (ih _ r2 hr)

/-- Books in which only cancellations wait to be reported. -/
def Good (x : QExchange.Venue) : Prop := ∀ t, Sided (Spec.bookOf x t) ∧ ∀ r ∈ (Spec.bookOf x t).reports, r.state = .cancel

theorem said_append (st : Status) (s : Side) (l m : List Report) : Spec.said st s (l ++ m) = Spec.said st s l + Spec.said st s m := total_append ..

theorem said_owned (st : Status) (a : Nat) (s : Side) (rs : List Report) : Spec.said st s (rs.filter fun r => decide (r.owner = a)) = Spec.told st a s rs := by
  induction rs with
  | nil => rfl
  | cons r rs ih =>
    unfold Spec.said Spec.told at ih ⊢
    by_cases h : r.owner = a
    · rw [List.filter_cons_of_pos (by simp [h]), total_cons, total_cons, ih]
      simp [h]
    · rw [List.filter_cons_of_neg (by simp [h]), total_cons, ih]
      simp [h]

/-- What one event does to the accounts: nothing is lost, both sides agree. -/
def Step (x x' : QExchange.Venue) (outs : List QExchange.Out) (es : List (Nat × QExchange.Event)) : Prop :=
  (∀ t a s, Spec.resting a s (Spec.bookOf x t) + Spec.told .cancel a s (Spec.bookOf x t).reports + Spec.ordered t a s es =
      Spec.resting a s (Spec.bookOf x' t) + Spec.told .cancel a s (Spec.bookOf x' t).reports + Spec.said .match_ s (Spec.received t a outs) + Spec.said .cancel s (Spec.received t a outs)) ∧
    ∀ t p, Spec.traded p .buy (Spec.sent t outs) = Spec.traded p .sell (Spec.sent t outs)

theorem bookOf_assign (x : QExchange.Venue) (subs : List (Nat × List (Nat × Exchange.Subscription))) (symbol t : Nat) (b b' : Book) (hb : x.books.lookup symbol = some b) :
    Spec.bookOf { x with books := Exchange.assignKey symbol b' x.books, subscriptions := subs } t = if t = symbol then b' else Spec.bookOf x t := by
  unfold Spec.bookOf
  simp only [Exchange.lookup_assignKey]
  split
  · rename_i h
    rw [h, hb]
    rfl
  · rfl

theorem step_still (x x' : QExchange.Venue) (lower : Nat) (e : QExchange.Event) (hbooks : x'.books = x.books) (he : ∀ q o, e ≠ .order q o) (hg : Good x) : Good x' ∧ Step x x' [] [(lower, e)] := by
  have hb : ∀ t, Spec.bookOf x' t = Spec.bookOf x t := fun t => by unfold Spec.bookOf; rw [hbooks]
  refine ⟨fun t => by rw [hb]; exact hg t, fun t a s => ?_, fun t p => rfl⟩
  rw [hb]
  have : Spec.ordered t a s [(lower, e)] = 0 := by
    cases e with
    | order q o => exact absurd rfl (he q o)
    | _ => rfl
  rw [this]
  rfl

/-- One event. -/
theorem handle_told (latency : Nat → Nat) (x : QExchange.Venue) (lower : Nat) (e : QExchange.Event) (x' : QExchange.Venue) (outs : List QExchange.Out) (h : QExchange.handle latency x lower e = .ok (x', outs)) (hg : Good x) :
    Good x' ∧ Step x x' outs [(lower, e)] := by
  cases e with
  | logon a sup =>
    simp only [QExchange.handle, Outcome.ok.injEq, Prod.mk.injEq] at h
    obtain ⟨rfl, rfl⟩ := h
    exact step_still _ _ _ _ rfl (by simp) hg
  | logout a =>
    simp only [QExchange.handle, Outcome.ok.injEq, Prod.mk.injEq] at h
    obtain ⟨rfl, rfl⟩ := h
    exact step_still _ _ _ _ rfl (by simp) hg
  | request a d ty is =>
    simp only [QExchange.handle] at h
    cases hr : Exchange.requestAll a d lower ty is x.subscriptions with
    | throws => rw [hr] at h; cases h
    | ub => rw [hr] at h; cases h
    | ok subs =>
      rw [hr] at h
      simp only [Outcome.bind_ok, Outcome.ok.injEq, Prod.mk.injEq] at h
      obtain ⟨rfl, rfl⟩ := h
      exact step_still _ _ _ _ rfl (by simp) hg
  | cancel symbol id =>
    simp only [QExchange.handle, QExchange.cancelOrder] at h
    cases hb : x.books.lookup symbol with
    | none =>
      rw [hb] at h
      simp only [Outcome.bind_ok, Outcome.ok.injEq, Prod.mk.injEq] at h
      obtain ⟨rfl, rfl⟩ := h
      exact step_still _ _ _ _ rfl (by simp) hg
    | some b =>
      rw [hb] at h
      simp only at h
      cases hc : (b.cancel id).2 with
      | throws => rw [hc] at h; cases h
      | ub => rw [hc] at h; cases h
      | ok u =>
        rw [hc] at h
        simp only [Outcome.bind_ok, Outcome.ok.injEq, Prod.mk.injEq] at h
        obtain ⟨rfl, rfl⟩ := h
        have hbo := fun t => bookOf_assign x x.subscriptions symbol t b (b.cancel id).1 hb
        have hbx : Spec.bookOf x symbol = b := by unfold Spec.bookOf; rw [hb]; rfl
        obtain ⟨h1, new, h2, h3, h4⟩ := cancel_told b id (by rw [← hbx]; exact (hg symbol).1)
        refine ⟨fun t => ?_, fun t a s => ?_, fun t p => rfl⟩
        · rw [hbo]
          split
          · refine ⟨h1, fun r hr => ?_⟩
            rw [h2] at hr
            rcases List.mem_append.1 hr with hr | hr
            · exact (hg symbol).2 r (by rw [hbx]; exact hr)
            · exact h4 r hr
          · exact hg t
        · have e0 : Spec.ordered t a s [(lower, .cancel symbol id)] = 0 := rfl
          have e1 : Spec.said .match_ s (Spec.received t a []) = 0 := rfl
          have e2 : Spec.said .cancel s (Spec.received t a []) = 0 := rfl
          rw [hbo, e0, e1, e2]
          split
          · rename_i ht
            rw [ht, hbx, h2, told_append]
            have := h3 a s
            omega
          · rfl
  | order q o =>
    simp only [QExchange.handle, QExchange.insertOrder] at h
    cases hb : x.books.lookup o.symbol with
    | none => rw [hb] at h; cases h
    | some b =>
      rw [hb] at h
      simp only at h
      cases hc : (b.insert o).2 with
      | throws => rw [hc] at h; cases h
      | ub => rw [hc] at h; cases h
      | ok u =>
        rw [hc, Outcome.bind_ok] at h
        generalize hr : QExchange.reportLoop latency lower q o (b.insert o).1 _ _ (b.insert o).1.reports _ = res at h
        cases res with
        | throws => cases h
        | ub => cases h
        | ok r =>
          simp only [Outcome.bind_ok, Outcome.ok.injEq, Prod.mk.injEq] at h
          obtain ⟨rfl, rfl⟩ := h
          have hbo := fun t subs => bookOf_assign x subs o.symbol t b { (b.insert o).1 with reports := [] } hb
          have hbx : Spec.bookOf x o.symbol = b := by unfold Spec.bookOf; rw [hb]; rfl
          have hsb : Sided b := by rw [← hbx]; exact (hg o.symbol).1
          have hwait : ∀ r ∈ b.reports, r.state = .cancel := by rw [← hbx]; exact (hg o.symbol).2
          obtain ⟨h1, new, h2, -, h3, h4, h5⟩ := insert_told b o hsb
          have h3 := h3 hc
          have hs := fun t => reportLoop_sent _ _ _ _ _ _ _ _ _ _ hr t
          refine ⟨fun t => ?_, fun t a s => ?_, fun t p => ?_⟩
          · rw [hbo]
            split
            · exact ⟨⟨h1.1, h1.2⟩, by simp⟩
            · exact hg t
          · have e0 : Spec.ordered t a s [(lower, .order q o)] = if o.symbol = t ∧ o.owner = a ∧ o.side = s then o.quantity else 0 := by simp [Spec.ordered, total_cons, total_nil]
            rw [hbo, e0, (hs t).2 a]
            by_cases ht : o.symbol = t
            · subst ht
              have hm := told_none .match_ a s b.reports fun r hr => by rw [hwait r hr]; simp
              have hn := told_none .cancel a s new h4
              have h6 : Spec.resting a s { (b.insert o).1 with reports := [] } = Spec.resting a s (b.insert o).1 := rfl
              have h7 : Spec.told .cancel a s ([] : List Report) = 0 := rfl
              have h8 := h3 a s
              simp only [if_true, true_and, hbx, said_owned]
              rw [h2, told_append, told_append, h6, h7]
              omega
            · have ht' : ¬t = o.symbol := fun e => ht e.symm
              simp only [ht, ht', false_and, if_false]
              rfl
          · rw [(hs t).1]
            split
            · rw [h2, traded_append, traded_append, h5, traded_none p _ b.reports fun r hr => by rw [hwait r hr]; simp, traded_none p _ b.reports fun r hr => by rw [hwait r hr]; simp]
            · rfl

theorem runEvents_told (latency : Nat → Nat → Nat) (x : QExchange.Venue) (es : List (Nat × QExchange.Event)) (x' : QExchange.Venue) (outs : List QExchange.Out) (h : QExchange.runEvents latency x es = .ok (x', outs)) (hg : Good x) :
    Step x x' outs es := by
  induction es generalizing latency x x' outs with
  | nil =>
    simp only [QExchange.runEvents, Outcome.ok.injEq, Prod.mk.injEq] at h
    obtain ⟨rfl, rfl⟩ := h
    exact ⟨fun t a s => rfl, fun t p => rfl⟩
  | cons e es ih =>
    obtain ⟨lower, e⟩ := e
    simp only [QExchange.runEvents] at h
    cases hh : QExchange.handle (latency 0) x lower e with
    | throws => rw [hh] at h; cases h
    | ub => rw [hh] at h; cases h
    | ok r =>
      obtain ⟨x1, o1⟩ := r
      rw [hh, Outcome.bind_ok] at h
      simp only at h
      cases hr : QExchange.runEvents (fun i => latency (i + 1)) x1 es with
      | throws => rw [hr] at h; cases h
      | ub => rw [hr] at h; cases h
      | ok r2 =>
        obtain ⟨x2, o2⟩ := r2
        rw [hr, Outcome.bind_ok] at h
        simp only [Outcome.ok.injEq, Prod.mk.injEq] at h
        obtain ⟨rfl, rfl⟩ := h
        obtain ⟨g1, g2, g3⟩ := handle_told (latency 0) x lower e x1 o1 hh hg
        obtain ⟨i1, i2⟩ := ih _ x1 x2 o2 hr g1
        refine ⟨fun t a s => ?_, fun t p => ?_⟩
        · have e1 : Spec.ordered t a s ((lower, e) :: es) = Spec.ordered t a s [(lower, e)] + Spec.ordered t a s es := by
            unfold Spec.ordered
            rw [← total_append, ← List.filterMap_append]
            rfl
          have e2 : Spec.received t a (o1 ++ o2) = Spec.received t a o1 ++ Spec.received t a o2 := List.filterMap_append ..
          rw [e1, e2, said_append, said_append]
          have := g2 t a s
          have := i1 t a s
          omega
        · have e2 : Spec.sent t (o1 ++ o2) = Spec.sent t o1 ++ Spec.sent t o2 := List.filterMap_append ..
          rw [e2, traded_append, traded_append, g3, i2]

theorem bookOf_create (traded : List Nat) (t : Nat) : Spec.bookOf (QExchange.create traded) t = empty := by
  unfold Spec.bookOf QExchange.create
  simp only
  induction traded with
  | nil => rfl
  | cons i l ih =>
    rw [List.map_cons, List.lookup_cons]
    split
    · rfl
    · exact ih

theorem good_create (traded : List Nat) : Good (QExchange.create traded) := by
  intro t
  rw [bookOf_create]
  simp [Sided, empty]

/-- **C187 for an exchange.** In any history of a new exchange, whatever the quotes of the orders, for every symbol, owner and side, as long as no message is an exception: what was submitted is what the reports that the owner received say was executed, plus what they say was cancelled, plus
what was cancelled and waits to be reported, plus what rests in the book. -/
theorem C187_exchange (latency : Nat → Nat → Nat) (traded : List Nat) (es : List (Nat × QExchange.Event)) (x : QExchange.Venue) (outs : List QExchange.Out) (h : QExchange.runEvents latency (QExchange.create traded) es = .ok (x, outs)) (t a : Nat) (s : Side) :
    Spec.ordered t a s es = Spec.said .match_ s (Spec.received t a outs) + Spec.said .cancel s (Spec.received t a outs) + Spec.told .cancel a s (Spec.bookOf x t).reports + Spec.resting a s (Spec.bookOf x t) := by
  have := (runEvents_told latency _ es x outs h (good_create traded)).1 t a s
  rw [bookOf_create] at this
  have e1 : Spec.resting a s empty = 0 := rfl
  have e2 : Spec.told .cancel a s empty.reports = 0 := rfl
  omega

/-- **C187, both sides at an exchange.** In any such history, for every symbol and quote, as much is reported bought as is reported sold, in the reports that were sent. -/
theorem C187_exchange_sides (latency : Nat → Nat → Nat) (traded : List Nat) (es : List (Nat × QExchange.Event)) (x : QExchange.Venue) (outs : List QExchange.Out) (h : QExchange.runEvents latency (QExchange.create traded) es = .ok (x, outs)) (t : Nat) (p : Quote) :
    Spec.traded p .buy (Spec.sent t outs) = Spec.traded p .sell (Spec.sent t outs) :=
  (runEvents_told latency _ es x outs h (good_create traded)).2 t p

/-- Two lots at an exchange: agent 1 has sold 2 of 5 to agent 2, and the cancellation of the other 3 waits to be reported. -/
example : ∃ x outs, QExchange.runEvents (fun _ _ => 0) (QExchange.create [1]) [(1, .order 1 (order .sell 1 10 1000 5)), (2, .order 2 (order .buy 2 1 20000 2)), (3, .cancel 1 0)] = .ok (x, outs) ∧
    Spec.said .match_ .sell (Spec.received 1 1 outs) = 2 ∧ Spec.told .cancel 1 .sell (Spec.bookOf x 1).reports = 3 ∧ Spec.traded ⟨10, ⟨1000, usd⟩⟩ .buy (Spec.sent 1 outs) = 2 := by
  refine ⟨_, _, rfl, ?_, ?_, ?_⟩ <;> decide +kernel

end Esl.QUnits
