import Verif.Lemmas.StaticInsert
/-! The static order book seen from outside, and its agreement with the reference book. -/
namespace Esl.Static
open Esl.Book (Side Lifetime Order Status Report directOrder Entry rank matchLoop Matched emplace crossing ahead pairOf)
open Esl.Pool (Pool upd)

/-! ## Specification -/

/-- A resting order, as it can be read from the book: identifier, limit, quantity, owner. -/
structure Spec.Row where
  id : Nat
  limit : Option Int
  quantity : Nat
  owner : Nat
deriving DecidableEq, Repr

/-- The resting orders: the identifiers returned by `orders()`, each with the data in its record. -/
def Spec.view (k : Coding) (b : SBook) : List Spec.Row :=
  (b.orders k).map fun i => ⟨i, (b.pool.get i).limit, (b.pool.get i).quantity, (b.pool.get i).owner⟩

/-- A resting order of the reference book. -/
def Spec.row (e : Entry) : Spec.Row := ⟨e.id, some e.order.limit, e.order.quantity, e.order.owner⟩

/-- A report with another identifier of the resting order. -/
def Spec.renameReport (ρ : Nat → Nat) (r : Report) : Report := if r.ident = directOrder then r else { r with ident := ρ r.ident }

/-- A resting order with another identifier. -/
def Spec.renameEntry (ρ : Nat → Nat) (e : Entry) : Entry := { e with id := ρ e.id }

/-- A history of the static book: a new book and operations. -/
def Spec.history (k : Coding) (capacity : Nat) (ops : List Op) : Outcome SBook := make k capacity >>= fun b => b.run k ops

/-! ## Helper lemmas -/

variable {k : Coding} {V : Int → Prop} {cap : Nat} {s : SBook} {H : Halves} {issued : List Nat}

theorem run_append (k : Coding) (b : SBook) (ops ops' : List Op) : b.run k (ops ++ ops') = (b.run k ops >>= fun b => b.run k ops') := by
  induction ops generalizing b with
  | nil => rfl
  | cons op ops ih =>
    rw [List.cons_append, SBook.run, SBook.run]
    cases b.apply k op with
    | ok b' => exact ih b'
    | throws => rfl
    | ub => rfl

theorem history_snoc (k : Coding) (cap : Nat) (ops : List Op) (op : Op) :
    Spec.history k cap (ops ++ [op]) = (Spec.history k cap ops >>= fun b => b.apply k op) := by
  unfold Spec.history
  cases make k cap with
  | ok b =>
    simp only [Outcome.bind_ok]
    rw [run_append]
    cases b.run k ops with
    | ok b' =>
      simp only [Outcome.bind_ok]
      rw [SBook.run]
      cases b'.apply k op <;> rfl
    | throws => rfl
    | ub => rfl
  | throws => rfl
  | ub => rfl

theorem chase_eq {n : Nat} {lv : Nat → Option Nat × Option Nat} {Q : Nat → List Entry} (b : SBook) (h : Core n cap b.pool lv Q issued) {l : Nat} (hl : l < n) :
    ∀ (q A : List Entry) (pr : Option Nat), Q l = A ++ q → Linked cap b.pool.data pr q → ∀ fuel, q.length < fuel →
    chase b fuel (q.head?.map (slot cap)) = q.map (·.id) := by
  intro q
  induction q with
  | nil =>
    intro A pr hq hlk fuel hf
    cases fuel with
    | zero => omega
    | succ f => rfl
  | cons e t ih =>
    intro A pr hq hlk fuel hf
    cases fuel with
    | zero => omega
    | succ f =>
      have he : e ∈ Q l := by rw [hq]; simp
      have hne : (b.pool.data (slot cap e)).succ ≠ some (slot cap e) := by
        rw [hlk.1]
        intro hc
        obtain ⟨x, hx, hxe⟩ := Option.map_eq_some_iff.1 hc
        have hxt : x ∈ t := List.mem_of_mem_head? hx
        have hs := h.slots_nodup hl
        rw [hq, List.map_append, List.map_cons, List.nodup_append] at hs
        exact (List.nodup_cons.1 hs.2.1).1 (List.mem_map.2 ⟨x, hxt, hxe⟩)
      show b.pool.index (slot cap e) :: (if _ then _ else _) = _
      rw [if_neg hne, h.index hl he, hlk.1]
      have := ih (A ++ [e]) _ (by rw [hq]; simp) hlk.2 f (by simp at hf; omega)
      rw [List.map_cons]
      congr 1

theorem Sim.orders (h : Sim k V cap s H issued) : s.orders k = (List.range k.levels).flatMap fun l => (queue k H l).map (·.id) := by
  have hcongr : ∀ (L : List Nat) (f g : Nat → List Nat), (∀ l ∈ L, f l = g l) → L.flatMap f = L.flatMap g := by
    intro L f g
    induction L with
    | nil => intro _; rfl
    | cons a L ih =>
      intro hl
      rw [List.flatMap_cons, List.flatMap_cons, hl a (by simp), ih fun l hx => hl l (List.mem_cons_of_mem _ hx)]
  unfold SBook.orders
  apply hcongr
  intro l hl
  have hl := List.mem_range.1 hl
  rw [h.core.levels l hl]
  exact chase_eq s h.core hl (queue k H l) [] none rfl (h.core.linked l hl) _ (by
    have := h.core.length_le hl
    rw [h.core.capacity]; omega)

theorem Linked.at {d : Nat → Record} {pr : Option Nat} {q : List Entry} (h : Linked cap d pr q) {e : Entry} (he : e ∈ q) :
    (d (slot cap e)).limit = some e.order.limit ∧ (d (slot cap e)).quantity = e.order.quantity ∧ (d (slot cap e)).owner = e.order.owner := by
  induction q generalizing pr with
  | nil => cases he
  | cons x t ih =>
    rcases List.mem_cons.1 he with rfl | he
    · rw [h.1]; exact ⟨rfl, rfl, rfl⟩
    · exact ih h.2 he

theorem Sim.view (h : Sim k V cap s H issued) : Spec.view k s = (List.range k.levels).flatMap fun l => (queue k H l).map Spec.row := by
  have hcongr : ∀ (L : List Nat) (f g : Nat → List Spec.Row), (∀ l ∈ L, f l = g l) → L.flatMap f = L.flatMap g := by
    intro L f g
    induction L with
    | nil => intro _; rfl
    | cons a L ih =>
      intro hl
      rw [List.flatMap_cons, List.flatMap_cons, hl a (by simp), ih fun l hx => hl l (List.mem_cons_of_mem _ hx)]
  unfold Spec.view
  rw [h.orders, List.map_flatMap]
  apply hcongr
  intro l hl
  have hl := List.mem_range.1 hl
  rw [List.map_map]
  apply List.map_congr_left
  intro e he
  obtain ⟨h1, h2, h3⟩ := (h.core.linked l hl).at he
  unfold Pool.get
  simp only [Function.comp, h.core.capacity]
  rw [h1, h2, h3]
  rfl

theorem flatMap_one {β : Type} (N a : Nat) (ha : a < N) (f : Nat → List β) (hf : ∀ l, l ≠ a → f l = []) : (List.range N).flatMap f = f a := by
  induction N with
  | zero => omega
  | succ N ih =>
    rw [List.range_succ, List.flatMap_append]
    simp only [List.flatMap_cons, List.flatMap_nil, List.append_nil]
    by_cases hN : a = N
    · subst hN
      have : (List.range a).flatMap f = [] := by
        rw [List.flatMap_eq_nil_iff]
        intro l hl
        have := List.mem_range.1 hl
        exact hf l (by omega)
      rw [this, List.nil_append]
    · rw [ih (by omega), hf N (by omega), List.append_nil]

/-- The orders resting at a price. -/
theorem Sim.view_at (h : Sim k V cap s H issued) (F : Spec.Faithful k V) (v : Int) :
    (Spec.view k s).filter (fun r => decide (r.limit = some v)) = ((H .buy ++ H .sell).filter fun e => decide (e.order.limit = v)).map Spec.row := by
  have hfm : ∀ (L : List Nat) (f : Nat → List Spec.Row) (p : Spec.Row → Bool), (L.flatMap f).filter p = L.flatMap fun l => (f l).filter p := by
    intro L f p
    induction L with
    | nil => rfl
    | cons a L ih => rw [List.flatMap_cons, List.flatMap_cons, List.filter_append, ih]
  rw [h.view, hfm]
  have hlim : ∀ sd, ∀ e ∈ H sd, e.order.limit = e.key := fun sd e he => (h.ok sd e he).2.1
  have hpre : ∀ l, ((queue k H l).map Spec.row).filter (fun r => decide (r.limit = some v)) =
      ((queue k H l).filter fun e => decide (e.order.limit = v)).map Spec.row := by
    intro l
    rw [List.filter_map]
    congr 1
    apply List.filter_congr
    intro e _
    simp [Spec.row]
  have hhalf : ∀ sd, (atLevel k (lev k v) (H sd)).filter (fun e => decide (e.order.limit = v)) = (H sd).filter fun e => decide (e.order.limit = v) := by
    intro sd
    unfold atLevel
    rw [List.filter_filter]
    apply List.filter_congr
    intro e he
    by_cases hv : e.order.limit = v
    · have : e.key = v := by rw [← hlim sd e he]; exact hv
      simp [hv, this]
    · simp [hv]
  by_cases hN : lev k v < k.levels
  · rw [flatMap_one k.levels (lev k v) hN]
    · rw [hpre]
      congr 1
      unfold queue
      rw [List.filter_append, List.filter_append, hhalf, hhalf]
    · intro l hl
      rw [hpre, List.map_eq_nil_iff, List.filter_eq_nil_iff]
      intro e he
      obtain ⟨sd, h1, h2⟩ := mem_queue.1 he
      have := hlim sd e h1
      simp only [decide_eq_true_eq]
      intro hc
      apply hl
      rw [← h2, ← this, hc]
  · have hnone : ∀ sd, ∀ e ∈ H sd, e.order.limit ≠ v := by
      intro sd e he hc
      have h1 := h.level_lt F sd he
      rw [← hlim sd e he, hc] at h1
      exact hN h1
    have e1 : ((H .buy ++ H .sell).filter fun e => decide (e.order.limit = v)) = [] := by
      rw [List.filter_eq_nil_iff]
      intro e he
      simp only [decide_eq_true_eq]
      rcases List.mem_append.1 he with he | he
      · exact hnone _ e he
      · exact hnone _ e he
    rw [e1]
    rw [List.map_nil, List.flatMap_eq_nil_iff]
    intro l _
    rw [hpre, List.map_eq_nil_iff, List.filter_eq_nil_iff]
    intro e he
    obtain ⟨sd, h1, h2⟩ := mem_queue.1 he
    simp only [decide_eq_true_eq]
    exact hnone sd e h1

/-! ### Renaming identifiers -/

theorem matchLoop_rename (ρ : Nat → Nat) (c : Int → Bool) (o : Order) (rem : Nat) (L : List Entry) (hid : ∀ e ∈ L, e.id ≠ directOrder) :
    matchLoop c o rem (L.map (Spec.renameEntry ρ)) =
      ⟨(matchLoop c o rem L).remainder, (matchLoop c o rem L).resting.map (Spec.renameEntry ρ),
       (matchLoop c o rem L).reports.map (Spec.renameReport ρ), (matchLoop c o rem L).erased.map ρ⟩ := by
  induction L generalizing rem with
  | nil => rfl
  | cons e L ih =>
    have hide := hid e (by simp)
    have ih := fun rem => ih rem fun x hx => hid x (List.mem_cons_of_mem _ hx)
    rw [List.map_cons, matchLoop, matchLoop]
    have hk : (Spec.renameEntry ρ e).key = e.key := rfl
    have ho : (Spec.renameEntry ρ e).order = e.order := rfl
    rw [hk, ho]
    by_cases hc : c e.key = true
    · simp only [hc, Bool.not_true, Bool.false_eq_true, if_false]
      by_cases h0 : min rem e.order.quantity = 0
      · simp only [h0, if_true, List.map_cons, List.map_nil]
      · simp only [h0, if_false]
        rw [ih]
        by_cases hl : e.order.quantity - min rem e.order.quantity = 0
        · simp only [hl, if_true, List.map_append, List.map_cons, List.map_nil, Spec.renameReport, hide, if_false, Spec.renameEntry]
        · simp only [hl, if_false, List.map_append, List.map_cons, List.map_nil, Spec.renameReport, hide, if_true, Spec.renameEntry]
    · simp only [hc, Bool.not_false, if_true, List.map_cons, List.map_nil]

theorem emplace_rename (ρ : Nat → Nat) (f : Int → Int → Bool) (e : Entry) (L : List Entry) :
    emplace f (Spec.renameEntry ρ e) (L.map (Spec.renameEntry ρ)) = (emplace f e L).map (Spec.renameEntry ρ) := by
  induction L with
  | nil => rfl
  | cons x L ih =>
    rw [List.map_cons, emplace, emplace]
    have : f (Spec.renameEntry ρ e).key (Spec.renameEntry ρ x).key = f e.key x.key := rfl
    rw [this]
    split
    · rfl
    · rw [ih]; rfl

/-- The reports of matching refer to the entries. -/
theorem matchLoop_idents (c : Int → Bool) (o : Order) (rem : Nat) (L : List Entry) :
    ∀ r ∈ (matchLoop c o rem L).reports, r.ident = directOrder ∨ ∃ e ∈ L, r.ident = e.id := by
  induction L generalizing rem with
  | nil => intro r hr; cases hr
  | cons e L ih =>
    intro r hr
    rw [matchLoop] at hr
    by_cases hc : c e.key = true
    · simp only [hc, Bool.not_true, Bool.false_eq_true, if_false] at hr
      by_cases h0 : min rem e.order.quantity = 0
      · simp only [h0, if_true] at hr; cases hr
      · simp only [h0, if_false] at hr
        have key : r ∈ ([⟨.match_, o.side, min rem e.order.quantity, directOrder, e.order.limit, o.owner⟩,
                   ⟨.match_, e.order.side, min rem e.order.quantity, e.id, e.order.limit, e.order.owner⟩] : List Report) ++
                   (matchLoop c o (rem - min rem e.order.quantity) L).reports := by
          by_cases hl : e.order.quantity - min rem e.order.quantity = 0
          · simp only [hl, if_true] at hr; exact hr
          · simp only [hl, if_false] at hr; exact hr
        rcases List.mem_append.1 key with hr | hr
        · rcases List.mem_cons.1 hr with rfl | hr
          · exact .inl rfl
          · rcases List.mem_cons.1 hr with rfl | hr
            · exact .inr ⟨e, by simp, rfl⟩
            · cases hr
        · rcases ih _ r hr with h | ⟨x, hx, h⟩
          · exact .inl h
          · exact .inr ⟨x, List.mem_cons_of_mem _ hx, h⟩
    · simp only [hc, Bool.not_false, if_true] at hr; cases hr

/-- The static book and the reference book agree, up to identifiers. -/
structure Agree (k : Coding) (V : Int → Prop) (cap : Nat) (s : SBook) (b : Book.Book) (ρ : Nat → Nat) : Prop where
  sim : Sim k V cap s (fun sd => (b.half sd).map (Spec.renameEntry ρ)) ((List.range b.next).map ρ)
  reports : s.reports = b.reports.map (Spec.renameReport ρ)
  idents : ∀ r ∈ b.reports, r.ident = directOrder ∨ r.ident < b.next

theorem agree_insert (F : Spec.Faithful k V) (b : Book.Book) (ρ : Nat → Nat) (hA : Agree k V cap s b ρ) (hI : Book.Inv b)
    (o : Order) (hV : V o.limit) (hq : 0 < o.quantity) (hl : o.lifetime = .goodUntilCancelled)
    (hn : (2 * b.next + 3) * cap < 2 ^ 64) (hnext : b.next < directOrder) :
    (s.insert k o = .throws ∧ cap < (b.insert o).bids.length + (b.insert o).asks.length) ∨
    ∃ s' ρ', s.insert k o = .ok s' ∧ Agree k V cap s' (b.insert o) ρ' := by
  have hins := Book.insert_inserted b o
  have hfresh := hI.fresh
  have hne : o.side ≠ o.side.other := ne_other _
  have hids : ∀ sd, ∀ e ∈ b.half sd, e.id ≠ directOrder := fun sd e he => by have := hfresh sd e he; omega
  have hmr := matchLoop_rename ρ (crossing o) o o.quantity (b.half o.side.other) (hids _)
  have hlen : ((List.range b.next).map ρ).length = b.next := by simp
  obtain ⟨h1, h2, h3⟩ := hA.sim.insert F o hV hq (by rw [hlen]; exact hn)
  have hm : Book.matched b o = matchLoop (crossing o) o o.quantity (b.half o.side.other) := rfl
  rw [hmr] at h1 h2 h3
  rw [← hm] at h1 h2 h3
  simp only at h1 h2 h3
  have hmids := matchLoop_idents (crossing o) o o.quantity (b.half o.side.other)
  rw [← hm] at hmids
  by_cases hr : (Book.matched b o).remainder = 0
  · right
    obtain ⟨s', he, hsim, hrep⟩ := h1 hr
    have hr' : ¬ (Book.matched b o).remainder > 0 := by omega
    have hnx := hins.next
    rw [if_neg hr'] at hnx
    refine ⟨s', ρ, he, ?_, ?_, ?_⟩
    · rw [hnx]
      have : (fun sd => ((b.insert o).half sd).map (Spec.renameEntry ρ)) =
          updS (fun sd => (b.half sd).map (Spec.renameEntry ρ)) o.side.other ((Book.matched b o).resting.map (Spec.renameEntry ρ)) := by
        funext sd
        rcases eq_or_other o.side sd with rfl | rfl
        · rw [updS_ne _ _ hne, hins.own, if_neg hr']
        · rw [updS_same, hins.opp]
      rw [this]; exact hsim
    · rw [hrep, hins.reports, if_neg hr', hA.reports]
      simp
    · rw [hins.reports, if_neg hr', hnx]
      intro r hrm
      rw [List.append_nil] at hrm
      rcases List.mem_append.1 hrm with hrm | hrm
      · exact hA.idents r hrm
      · rcases hmids r hrm with h | ⟨e, he, h⟩
        · exact .inl h
        · right; rw [h]; exact hfresh _ e he
  · have hr' : (Book.matched b o).remainder > 0 := by omega
    have hlife : ¬ (o.lifetime = .immediateOrCancel ∨ o.lifetime = .fillOrKill ∧
        (Book.matched b o).reports.map (Spec.renameReport ρ) = []) := by rw [hl]; simp
    have hlens : (b.insert o).bids.length + (b.insert o).asks.length = (Book.matched b o).resting.length + (b.half o.side).length + 1 := by
      have e1 : ((b.insert o).half o.side).length = (b.half o.side).length + 1 := by
        rw [hins.own, if_pos hr', (Book.emplace_perm ..).length_eq]; rfl
      have e2 : ((b.insert o).half o.side.other).length = (Book.matched b o).resting.length := by rw [hins.opp]
      cases hs : o.side <;> rw [hs] at e1 e2 <;> simp only [Book.Book.half, Book.Side.other] at e1 e2 ⊢ <;> omega
    rcases h3 hr' hlife with ⟨ht, hc⟩ | ⟨i, s', he, hc, hlt, hsim, hrep⟩
    · left
      refine ⟨ht, ?_⟩
      rw [hlens]
      simp only [List.length_map] at hc
      omega
    · right
      have hnx := hins.next
      rw [if_pos hr'] at hnx
      have hnx' : (b.insert o).next = b.next + 1 := by
        rw [hnx]; apply Nat.mod_eq_of_lt; unfold directOrder at hnext; omega
      let ρ' := upd ρ b.next i
      have hρ : ∀ j, j < b.next → ρ' j = ρ j := fun j hj => upd_other _ _ (by omega)
      have hE : ∀ L : List Entry, (∀ e ∈ L, e.id < b.next) → L.map (Spec.renameEntry ρ') = L.map (Spec.renameEntry ρ) := by
        intro L hL
        apply List.map_congr_left
        intro e he
        unfold Spec.renameEntry
        rw [hρ _ (hL e he)]
      have hR : ∀ L : List Report, (∀ r ∈ L, r.ident = directOrder ∨ r.ident < b.next) →
          L.map (Spec.renameReport ρ') = L.map (Spec.renameReport ρ) := by
        intro L hL
        apply List.map_congr_left
        intro r hr
        unfold Spec.renameReport
        rcases hL r hr with h | h
        · rw [if_pos h, if_pos h]
        · rw [hρ _ h]
      have hrest : ∀ e ∈ (Book.matched b o).resting, e.id < b.next := by
        intro e he
        rcases Book.resting_mem (Book.matched_result b o hI) e he with h | ⟨y, hy, x, _, _, rfl⟩
        · exact hfresh _ e h
        · exact hfresh _ y hy
      have hmid' : ∀ r ∈ (Book.matched b o).reports, r.ident = directOrder ∨ r.ident < b.next := by
        intro r hrm
        rcases hmids r hrm with h | ⟨e, he, h⟩
        · exact .inl h
        · right; rw [h]; exact hfresh _ e he
      refine ⟨s', ρ', he, ?_, ?_, ?_⟩
      · have e1 : (fun sd => ((b.insert o).half sd).map (Spec.renameEntry ρ')) =
            updS (updS (fun sd => (b.half sd).map (Spec.renameEntry ρ)) o.side.other ((Book.matched b o).resting.map (Spec.renameEntry ρ))) o.side
              (emplace (ahead o.side) ⟨o.limit, i, { o with quantity := (Book.matched b o).remainder }⟩ ((b.half o.side).map (Spec.renameEntry ρ))) := by
          funext sd
          rcases eq_or_other o.side sd with rfl | rfl
          · rw [updS_same, hins.own, if_pos hr', ← emplace_rename, hE _ (hfresh _)]
            congr 1
            unfold Spec.renameEntry Book.placed
            rw [show ρ' b.next = i from upd_same ..]
          · rw [updS_ne _ _ (other_ne _), updS_same, hins.opp, hE _ hrest]
        have e2 : (List.range (b.insert o).next).map ρ' = (List.range b.next).map ρ ++ [i] := by
          rw [hnx', List.range_succ, List.map_append]
          congr 1
          · apply List.map_congr_left
            intro j hj
            exact hρ j (List.mem_range.1 hj)
          · show [ρ' b.next] = [i]
            rw [show ρ' b.next = i from upd_same ..]
        rw [e1, e2]; exact hsim
      · rw [hrep, hins.reports, if_pos hr', hA.reports, List.map_append, List.map_append, hR _ hA.idents, hR _ hmid']
        congr 1
        show _ = [Spec.renameReport ρ' _]
        unfold Spec.renameReport
        rw [if_neg (by simp only; omega)]
        show _ = [(⟨_, _, _, ρ' b.next, _, _⟩ : Report)]
        rw [show ρ' b.next = i from upd_same ..]
      · rw [hins.reports, if_pos hr', hnx']
        intro r hrm
        rcases List.mem_append.1 hrm with hrm | hrm
        · rcases List.mem_append.1 hrm with hrm | hrm
          · rcases hA.idents r hrm with h | h
            · exact .inl h
            · right; omega
          · rcases hmid' r hrm with h | h
            · exact .inl h
            · right; omega
        · have : r = ⟨.placement, o.side, (Book.matched b o).remainder, b.next, o.limit, o.owner⟩ := by simpa using hrm
          rw [this]; right; simp

theorem Sim.issued_sorted (h : Sim k V cap s H issued) : issued.Pairwise (· < ·) := by
  obtain ⟨_, _, hi, _⟩ := h.core.pool
  exact hi.sorted

theorem Sim.issued_bound (h : Sim k V cap s H issued) : ∀ i ∈ issued, i < (2 * issued.length + 1) * cap := by
  obtain ⟨_, _, hi, _⟩ := h.core.pool
  intro i hm
  have h1 := hi.below i hm
  have h2 := hi.high
  have h3 : ((forget s.pool).round + 1) * cap ≤ (2 * issued.length + 1) * cap := Nat.mul_le_mul_right _ (by have := hi.rounds; omega)
  omega

theorem Sim.live_issued (h : Sim k V cap s H issued) (F : Spec.Faithful k V) (sd : Side) (e : Entry) (he : e ∈ H sd) : e.id ∈ issued := by
  obtain ⟨live, _, hi, hm⟩ := h.core.pool
  have : e.id ∈ live.map (·.1) := (hm e.id).2 ⟨lev k e.key, h.level_lt F sd he, List.mem_map.2 ⟨e, mem_queue.2 ⟨sd, he, rfl⟩, rfl⟩⟩
  obtain ⟨x, hx, hxe⟩ := List.mem_map.1 this
  rw [← hxe]; exact hi.sub x hx

theorem Sim.mem_view (h : Sim k V cap s H issued) (F : Spec.Faithful k V) (r : Spec.Row) :
    r ∈ Spec.view k s ↔ ∃ sd, ∃ e ∈ H sd, r = Spec.row e := by
  rw [h.view, List.mem_flatMap]
  constructor
  · rintro ⟨l, _, hr⟩
    obtain ⟨e, he, rfl⟩ := List.mem_map.1 hr
    obtain ⟨sd, h1, _⟩ := mem_queue.1 he
    exact ⟨sd, e, h1, rfl⟩
  · rintro ⟨sd, e, he, rfl⟩
    exact ⟨lev k e.key, List.mem_range.2 (h.level_lt F sd he), List.mem_map.2 ⟨e, mem_queue.2 ⟨sd, he, rfl⟩, rfl⟩⟩

theorem matchLoop_direct (c : Int → Bool) (o : Order) (rem : Nat) (L : List Entry) (hid : ∀ e ∈ L, e.id ≠ directOrder) :
    (((matchLoop c o rem L).reports.filter fun r => decide (r.ident = directOrder)).map (·.quantity)).sum + (matchLoop c o rem L).remainder = rem := by
  induction L generalizing rem with
  | nil => simp [matchLoop]
  | cons e L ih =>
    have hide := hid e (by simp)
    have ih := ih (rem - min rem e.order.quantity) fun x hx => hid x (List.mem_cons_of_mem _ hx)
    rw [matchLoop]
    by_cases hc : c e.key = true
    · simp only [hc, Bool.not_true, Bool.false_eq_true, if_false]
      by_cases h0 : min rem e.order.quantity = 0
      · simp only [h0, if_true]; simp
      · simp only [h0, if_false]
        have hm : min rem e.order.quantity ≤ rem := Nat.min_le_left ..
        by_cases hl : e.order.quantity - min rem e.order.quantity = 0
        · simp only [hl, if_true]
          simp only [List.cons_append, List.nil_append, List.filter_cons, decide_true, if_true, hide, decide_false, Bool.false_eq_true, if_false, List.map_cons, List.sum_cons]
          omega
        · simp only [hl, if_false]
          simp only [List.cons_append, List.nil_append, List.filter_cons, decide_true, if_true, hide, decide_false, Bool.false_eq_true, if_false, List.map_cons, List.sum_cons]
          omega
    · simp only [hc, Bool.not_false, if_true]; simp

theorem matchLoop_states (c : Int → Bool) (o : Order) (rem : Nat) (L : List Entry) : ∀ r ∈ (matchLoop c o rem L).reports, r.state = .match_ := by
  induction L generalizing rem with
  | nil => intro r hr; cases hr
  | cons e L ih =>
    have ih := ih (rem - min rem e.order.quantity)
    rw [matchLoop]
    by_cases hc : c e.key = true
    · simp only [hc, Bool.not_true, Bool.false_eq_true, if_false]
      by_cases h0 : min rem e.order.quantity = 0
      · simp only [h0, if_true]; simp
      · simp only [h0, if_false]
        by_cases hl : e.order.quantity - min rem e.order.quantity = 0
        · simp only [hl, if_true]
          intro r hr
          simp only [List.cons_append, List.nil_append, List.mem_cons] at hr
          rcases hr with h | h | h
          · rw [h]
          · rw [h]
          · exact ih r h
        · simp only [hl, if_false]
          intro r hr
          simp only [List.cons_append, List.nil_append, List.mem_cons] at hr
          rcases hr with h | h | h
          · rw [h]
          · rw [h]
          · exact ih r h
    · simp only [hc, Bool.not_false, if_true]; simp

theorem matchLoop_from (c : Int → Bool) (o : Order) (rem : Nat) (L : List Entry) :
    ∀ x ∈ (matchLoop c o rem L).resting, ∃ e ∈ L, x.id = e.id ∧ x.key = e.key ∧ x.order.limit = e.order.limit ∧ x.order.owner = e.order.owner ∧
      x.order.quantity ≤ e.order.quantity := by
  induction L generalizing rem with
  | nil => intro x hx; cases hx
  | cons e L ih =>
    have ih := ih (rem - min rem e.order.quantity)
    have same : ∀ x ∈ e :: L, ∃ f ∈ e :: L, x.id = f.id ∧ x.key = f.key ∧ x.order.limit = f.order.limit ∧ x.order.owner = f.order.owner ∧
      x.order.quantity ≤ f.order.quantity := fun x hx => ⟨x, hx, rfl, rfl, rfl, rfl, Nat.le_refl _⟩
    rw [matchLoop]
    by_cases hc : c e.key = true
    · simp only [hc, Bool.not_true, Bool.false_eq_true, if_false]
      by_cases h0 : min rem e.order.quantity = 0
      · simp only [h0, if_true]; exact same
      · simp only [h0, if_false]
        by_cases hl : e.order.quantity - min rem e.order.quantity = 0
        · simp only [hl, if_true]
          intro x hx
          obtain ⟨f, hf, hr⟩ := ih x hx
          exact ⟨f, List.mem_cons_of_mem _ hf, hr⟩
        · simp only [hl, if_false]
          intro x hx
          rcases List.mem_cons.1 hx with h | h
          · rw [h]; exact ⟨e, by simp, rfl, rfl, rfl, rfl, Nat.sub_le ..⟩
          · obtain ⟨f, hf, hr⟩ := ih x h
            exact ⟨f, List.mem_cons_of_mem _ hf, hr⟩
    · simp only [hc, Bool.not_false, if_true]; exact same

end Esl.Static
