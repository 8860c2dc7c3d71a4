import Verif.Model.Listing
import Verif.Props.Printing
import Verif.Props.Identity
import Mathlib.Tactic.SplitIfs
/-!
# C152: printed inventories show what they contain
-/
namespace Esl.Listing
open Price

/-! ## Specification -/

/-- The kinds of property. -/
inductive Spec.Kind where
  | property | asset | money | cash | loan | security | stock | bond | lending
deriving DecidableEq

/-- What a reader learns from the name of a property: its kind; for money and cash the code of the currency; and the identifier, except for assets and loans, whose names have none. -/
def Spec.seen : Property → Spec.Kind × List Nat
  | .property i => (.property, i)
  | .asset _ => (.asset, [])
  | .money c _ => (.money, [c.c0, c.c1, c.c2])
  | .cash c => (.cash, [c.c0, c.c1, c.c2])
  | .loan _ => (.loan, [])
  | .security i => (.security, i)
  | .stock i => (.stock, i)
  | .bond i => (.bond, i)
  | .lending i => (.lending, i)

/-- The code of the currency of a property, if it has one, consists of capital letters. -/
def Spec.Valid : Property → Prop
  | .money c _ => Currency.make c.c0 c.c1 c.c2 c.denominator = .ok c
  | .cash c => Currency.make c.c0 c.c1 c.c2 c.denominator = .ok c
  | _ => True

/-- What a reader expects: the entries, separated by commas. -/
def Spec.listed (l : List (Property × Nat)) : List Char :=
  ['{'] ++ List.intercalate [',', ' '] (l.map fun e => e.1.name ++ [':', ' '] ++ Nat.toDigits 10 e.2) ++ ['}']

/-! ## Names -/

theorem valid_bounds {c : Currency} (h : Currency.make c.c0 c.c1 c.c2 c.denominator = .ok c) :
    (65 ≤ c.c0 ∧ c.c0 ≤ 90) ∧ (65 ≤ c.c1 ∧ c.c1 ≤ 90) ∧ (65 ≤ c.c2 ∧ c.c2 ≤ 90) := by
  unfold Currency.make at h
  split_ifs at h <;> first | (cases h; done) | (refine ⟨?_, ?_, ?_⟩ <;> omega)

theorem ofNat_ne {x : Nat} (h : 65 ≤ x ∧ x ≤ 90) (y : Char) (hy : y.toNat < 65 ∨ 90 < y.toNat) : Char.ofNat x ≠ y := by
  intro e
  have := Printing.toNat_small x h.2
  rw [e] at this
  omega

theorem ofNat_inj {x y : Nat} (hx : 65 ≤ x ∧ x ≤ 90) (hy : 65 ≤ y ∧ y ≤ 90) (h : Char.ofNat x = Char.ofNat y) : x = y := by
  rw [← Printing.toNat_small x hx.2, ← Printing.toNat_small y hy.2, h]

theorem code_iff {c d : Currency} (hc : Currency.make c.c0 c.c1 c.c2 c.denominator = .ok c) (hd : Currency.make d.c0 d.c1 d.c2 d.denominator = .ok d) :
    Printing.code c = Printing.code d ↔ [c.c0, c.c1, c.c2] = [d.c0, d.c1, d.c2] := by
  have h1 := valid_bounds hc
  have h2 := valid_bounds hd
  constructor
  · intro h
    simp only [Printing.code, List.cons.injEq, and_true] at h
    rw [ofNat_inj h1.1 h2.1 h.1, ofNat_inj h1.2.1 h2.2.1 h.2.1, ofNat_inj h1.2.2 h2.2.2 h.2.2]
  · intro h
    simp only [List.cons.injEq, and_true] at h
    simp [Printing.code, h.1, h.2.1, h.2.2]

theorem render_iff (i j : List Nat) : Identity.render 0 i = Identity.render 0 j ↔ i = j :=
  ⟨Identity.C04_render_injective 0 0 i j, fun h => h ▸ rfl⟩

/-- **C152**: the names of two properties are the same exactly if a reader learns the same from them: only assets, loans, and money of which the currencies have the same code are not told apart. -/
theorem C152_names_partial (a b : Property) (ha : Spec.Valid a) (hb : Spec.Valid b) : a.name = b.name ↔ Spec.seen a = Spec.seen b := by
  have up : ∀ {c : Currency} {s : List Char}, Currency.make c.c0 c.c1 c.c2 c.denominator = .ok c → ∀ {y : Char} {t : List Char},
      90 < y.toNat → (Printing.code c ++ s ≠ y :: t ∧ y :: t ≠ Printing.code c ++ s) := by
    intro c s hc y t hy
    have := ofNat_ne (valid_bounds hc).1 y (.inr hy)
    simp only [Printing.code, List.cons_append, ne_eq, List.cons.injEq, not_and]
    exact ⟨fun h => absurd h this, fun h => absurd h.symm this⟩
  cases a <;> cases b <;>
    simp only [Property.name, Spec.seen, List.cons_append, List.nil_append, List.append_assoc, Prod.mk.injEq, reduceCtorEq, false_and, true_and, iff_false]
  case property.money => exact (up hb (by decide)).2
  case property.cash => exact (up hb (by decide)).2
  case asset.money => exact (up hb (by decide)).2
  case asset.cash => exact (up hb (by decide)).2
  case loan.money => exact (up hb (by decide)).2
  case loan.cash => exact (up hb (by decide)).2
  case security.money => exact (up hb (by decide)).2
  case security.cash => exact (up hb (by decide)).2
  case stock.money => exact (up hb (by decide)).2
  case stock.cash => exact (up hb (by decide)).2
  case bond.money => exact (up hb (by decide)).2
  case bond.cash => exact (up hb (by decide)).2
  case lending.money => exact (up hb (by decide)).2
  case lending.cash => exact (up hb (by decide)).2
  case money.property => exact (up ha (by decide)).1
  case cash.property => exact (up ha (by decide)).1
  case money.asset => exact (up ha (by decide)).1
  case cash.asset => exact (up ha (by decide)).1
  case money.loan => exact (up ha (by decide)).1
  case cash.loan => exact (up ha (by decide)).1
  case money.security => exact (up ha (by decide)).1
  case cash.security => exact (up ha (by decide)).1
  case money.stock => exact (up ha (by decide)).1
  case cash.stock => exact (up ha (by decide)).1
  case money.bond => exact (up ha (by decide)).1
  case cash.bond => exact (up ha (by decide)).1
  case money.lending => exact (up ha (by decide)).1
  case cash.lending => exact (up ha (by decide)).1
  case money.money => rw [List.append_left_inj, code_iff ha hb]
  case cash.cash => rw [List.append_left_inj, code_iff ha hb]
  case money.cash => simp [Printing.code]
  case cash.money => simp [Printing.code]
  all_goals simp [render_iff]

example : Spec.Valid (.cash Printing.usd) ∧ (Property.cash Printing.usd).name = ['U', 'S', 'D', ' ', 'c', 'a', 's', 'h'] ∧
    (Property.stock [1, 2]).name = ['s', 't', 'o', 'c', 'k', ' ', '"', '1', '-', '2', '"'] ∧ (Property.stock [1, 2]).name ≠ (Property.stock [12]).name :=
  ⟨by unfold Spec.Valid; decide, by decide, by decide, by decide⟩

/-- **C152**: loans have the same name, whichever parties they are between. -/
theorem C152_counterexample_loans (i j : List Nat) (n : Nat) : print [(.loan i, n)] = print [(.loan j, n)] := rfl

/-- **C152**: assets have the same name. -/
theorem C152_counterexample_assets (i j : List Nat) (n : Nat) : print [(.asset i, n)] = print [(.asset j, n)] := rfl

example : (Property.loan [1, 2] ≠ Property.loan [2, 1]) ∧ (Property.asset [1] ≠ Property.asset [2]) := by decide

/-! ## Characters of names -/

theorem render_chars (i : List Nat) (x : Char) (hx : x.isDigit = false) (h1 : x ≠ '"') (h2 : x ≠ '-') : x ∉ Identity.render 0 i := by
  have hd : ∀ d, x ∉ Identity.renderDigit 0 d := fun d h => by
    have := Identity.renderDigit_isDigit 0 d _ h
    rw [hx] at this
    cases this
  have hr : ∀ ds : List Nat, x ∉ Identity.renderRest 0 ds := by
    intro ds
    induction ds with
    | nil => simp [Identity.renderRest]
    | cons d ds ih =>
      simp only [Identity.renderRest, List.mem_cons, List.mem_append, not_or]
      exact ⟨h2, hd d, ih⟩
  cases i with
  | nil => simp [Identity.render]
  | cons d ds =>
    simp only [Identity.render, List.mem_cons, List.mem_append, not_or]
    exact ⟨h1, ⟨hd d, hr ds⟩, h1, by simp⟩

theorem code_chars {c : Currency} (h : Currency.make c.c0 c.c1 c.c2 c.denominator = .ok c) (x : Char) (hx : x.toNat < 65) : x ∉ Printing.code c := by
  have hb := valid_bounds h
  simp only [Printing.code, List.mem_cons, List.not_mem_nil, or_false, not_or]
  exact ⟨(ofNat_ne hb.1 x (.inl hx)).symm, (ofNat_ne hb.2.1 x (.inl hx)).symm, (ofNat_ne hb.2.2 x (.inl hx)).symm⟩

/-- A name has no colon, comma or brace. -/
theorem name_chars (p : Property) (hp : Spec.Valid p) : ':' ∉ p.name ∧ ',' ∉ p.name ∧ '}' ∉ p.name := by
  have hr : ∀ i, ':' ∉ Identity.render 0 i ∧ ',' ∉ Identity.render 0 i ∧ '}' ∉ Identity.render 0 i := fun i =>
    ⟨render_chars i _ (by decide) (by decide) (by decide), render_chars i _ (by decide) (by decide) (by decide), render_chars i _ (by decide) (by decide) (by decide)⟩
  have hbrace : ∀ {c : Currency}, Currency.make c.c0 c.c1 c.c2 c.denominator = .ok c → '}' ∉ Printing.code c := by
    intro c h
    have hb := valid_bounds h
    simp only [Printing.code, List.mem_cons, List.not_mem_nil, or_false, not_or]
    exact ⟨(ofNat_ne hb.1 _ (.inr (by decide))).symm, (ofNat_ne hb.2.1 _ (.inr (by decide))).symm, (ofNat_ne hb.2.2 _ (.inr (by decide))).symm⟩
  cases p
  case money c i =>
    have h1 := code_chars hp ':' (by decide)
    have h2 := code_chars hp ',' (by decide)
    have h3 := hbrace hp
    simp only [Property.name, List.mem_append, not_or]
    exact ⟨⟨h1, by decide⟩, ⟨h2, by decide⟩, ⟨h3, by decide⟩⟩
  case cash c =>
    have h1 := code_chars hp ':' (by decide)
    have h2 := code_chars hp ',' (by decide)
    have h3 := hbrace hp
    simp only [Property.name, List.mem_append, not_or]
    exact ⟨⟨h1, by decide⟩, ⟨h2, by decide⟩, ⟨h3, by decide⟩⟩
  case asset => simp only [Property.name]; decide
  case loan => simp only [Property.name]; decide
  all_goals
    rename_i i
    simp only [Property.name, List.mem_append, not_or]
    exact ⟨⟨by decide, (hr i).1⟩, ⟨by decide, (hr i).2.1⟩, ⟨by decide, (hr i).2.2⟩⟩

/-! ## Inventories -/

theorem intercalate_rest (e : List Char) (l : List (Property × Nat)) :
    List.intercalate [',', ' '] (e :: l.map entry) = e ++ rest false l := by
  induction l generalizing e with
  | nil => simp [rest, List.intercalate]
  | cons f l ih =>
    rw [List.map_cons, List.intercalate_cons_cons, ih]
    simp [rest]

/-- **C152**: an inventory of which the first entry is not money is printed as the list of all its entries, money among them, in the order of iteration. -/
theorem C152_listed_partial (l : List (Property × Nat)) (h : ∀ e ∈ l.head?, e.1.isMoney = false) : print l = Spec.listed l := by
  have hf : (fun e : Property × Nat => e.1.name ++ [':', ' '] ++ Nat.toDigits 10 e.2) = entry := rfl
  cases l with
  | nil => rfl
  | cons e l =>
    have h0 : e.1.isMoney = false := h e rfl
    rw [Spec.listed, hf, List.map_cons, intercalate_rest]
    simp [print, h0]

example : print [(.stock [1, 2], 30), (.cash Printing.usd, 4)] =
    "{stock \"1-2\": 30, USD cash: 4}".toList ∧ ∀ e ∈ [(Property.stock [1, 2], 30), (Property.cash Printing.usd, 4)].head?, e.1.isMoney = false := by
  refine ⟨by decide +kernel, ?_⟩
  intro e he
  cases he
  rfl

theorem entry_inj {a b : Property × Nat} {s t : List Char} (ha : Spec.Valid a.1) (hb : Spec.Valid b.1)
    (hs : ∀ c ∈ s.head?, ¬c.isDigit) (ht : ∀ c ∈ t.head?, ¬c.isDigit) (h : entry a ++ s = entry b ++ t) :
    (Spec.seen a.1 = Spec.seen b.1 ∧ a.2 = b.2) ∧ s = t := by
  simp only [entry, List.append_assoc, List.cons_append, List.nil_append] at h
  obtain ⟨h1, h2⟩ := Printing.split_at ':' (name_chars a.1 ha).1 (name_chars b.1 hb).1 h
  simp only [List.cons.injEq, true_and] at h2
  obtain ⟨h3, h4⟩ := Identity.split_unique _ _ _ _ (Printing.toDigits_isDigit a.2) (Printing.toDigits_isDigit b.2) hs ht h2
  exact ⟨⟨(C152_names_partial a.1 b.1 ha hb).1 h1, Printing.toDigits_inj h3⟩, h4⟩

theorem rest_head (l : List (Property × Nat)) : ∀ c ∈ (rest false l ++ ['}']).head?, ¬c.isDigit := by
  cases l with
  | nil => simp [rest]
  | cons e l => simp [rest]

theorem rest_inj : ∀ (l m : List (Property × Nat)), (∀ e ∈ l, Spec.Valid e.1) → (∀ e ∈ m, Spec.Valid e.1) → rest false l ++ ['}'] = rest false m ++ ['}'] →
    l.map (fun e => (Spec.seen e.1, e.2)) = m.map (fun e => (Spec.seen e.1, e.2))
  | [], [], _, _, _ => rfl
  | [], e :: m, _, _, h => by simp [rest] at h
  | e :: l, [], _, _, h => by simp [rest] at h
  | e :: l, f :: m, hl, hm, h => by
    simp only [rest, Bool.not_false, if_true, List.append_assoc, List.cons_append, List.nil_append, List.cons.injEq, true_and] at h
    obtain ⟨h1, h2⟩ := entry_inj (hl e (by simp)) (hm f (by simp)) (rest_head l) (rest_head m) h
    have := rest_inj l m (fun x hx => hl x (by simp [hx])) (fun x hx => hm x (by simp [hx])) h2
    simp [this, h1.1, h1.2]

theorem entry_ne_brace (a : Property × Nat) (ha : Spec.Valid a.1) (s t : List Char) : entry a ++ s ≠ '}' :: t := by
  intro h
  have := (name_chars a.1 ha).2.2
  simp only [entry, List.append_assoc, List.cons_append, List.nil_append] at h
  cases hn : a.1.name with
  | nil => rw [hn] at h; simp at h
  | cons x xs =>
    rw [hn] at h this
    simp only [List.cons_append, List.cons.injEq] at h
    exact this (h.1 ▸ List.mem_cons_self)

/-- **C152**: two inventories that do not start with money are printed alike exactly if they have, in the order of iteration, the same amounts of properties with the same names. -/
theorem C152_contents_partial (l m : List (Property × Nat)) (hl : ∀ e ∈ l, Spec.Valid e.1) (hm : ∀ e ∈ m, Spec.Valid e.1)
    (hl0 : ∀ e ∈ l.head?, e.1.isMoney = false) (hm0 : ∀ e ∈ m.head?, e.1.isMoney = false) :
    print l = print m ↔ l.map (fun e => (Spec.seen e.1, e.2)) = m.map (fun e => (Spec.seen e.1, e.2)) := by
  constructor
  · intro h
    cases l with
    | nil =>
      cases m with
      | nil => rfl
      | cons f m =>
        have h0 : f.1.isMoney = false := hm0 f rfl
        simp only [print, h0, Bool.not_false, if_true, List.append_assoc, List.cons_append, List.nil_append, List.cons.injEq, true_and] at h
        exact absurd h.symm (entry_ne_brace f (hm f (by simp)) _ _)
    | cons e l =>
      have h0 : e.1.isMoney = false := hl0 e rfl
      cases m with
      | nil =>
        simp only [print, h0, Bool.not_false, if_true, List.append_assoc, List.cons_append, List.nil_append, List.cons.injEq, true_and] at h
        exact absurd h (entry_ne_brace e (hl e (by simp)) _ _)
      | cons f m =>
        have h1 : f.1.isMoney = false := hm0 f rfl
        simp only [print, h0, h1, Bool.not_false, if_true, List.append_assoc, List.cons_append, List.nil_append, List.cons.injEq, true_and] at h
        obtain ⟨h2, h3⟩ := entry_inj (hl e (by simp)) (hm f (by simp)) (rest_head l) (rest_head m) h
        have := rest_inj l m (fun x hx => hl x (by simp [hx])) (fun x hx => hm x (by simp [hx])) h3
        simp [this, h2.1, h2.2]
  · intro h
    rw [C152_listed_partial l hl0, C152_listed_partial m hm0, Spec.listed, Spec.listed]
    have : ∀ (l m : List (Property × Nat)), (∀ e ∈ l, Spec.Valid e.1) → (∀ e ∈ m, Spec.Valid e.1) →
        l.map (fun e => (Spec.seen e.1, e.2)) = m.map (fun e => (Spec.seen e.1, e.2)) →
        l.map (fun e => e.1.name ++ [':', ' '] ++ Nat.toDigits 10 e.2) = m.map (fun e => e.1.name ++ [':', ' '] ++ Nat.toDigits 10 e.2) := by
      intro l
      induction l with
      | nil => intro m _ _ h; cases m with
        | nil => rfl
        | cons => simp at h
      | cons e l ih =>
        intro m hl hm h
        cases m with
        | nil => simp at h
        | cons f m =>
          simp only [List.map_cons, List.cons.injEq, Prod.mk.injEq] at h ⊢
          refine ⟨?_, ih m (fun x hx => hl x (by simp [hx])) (fun x hx => hm x (by simp [hx])) h.2⟩
          rw [(C152_names_partial e.1 f.1 (hl e (by simp)) (hm f (by simp))).2 h.1.1, h.1.2]
    rw [this l m hl hm h]

example : print [(.stock [1, 2], 30), (.stock [1], 4)] ≠ print [(.stock [1, 2], 30), (.stock [1], 5)] := by decide

/-- **C152**: an inventory of which the first entry is money is printed as if it were empty, whatever it contains. -/
theorem C152_counterexample_money (e : Property × Nat) (l : List (Property × Nat)) (h : e.1.isMoney = true) : print (e :: l) = ['{', '}'] := by
  have : ∀ l, rest true l = [] := by
    intro l
    induction l with
    | nil => rfl
    | cons f l ih => simp [rest, ih]
  simp [print, h, this]

/-- **C152**: an inventory with money and other property is printed as if it were empty or with all its entries, depending on the order of iteration. -/
theorem C152_counterexample_order (l : List (Property × Nat)) (hm : ∃ e ∈ l, e.1.isMoney = true) (ho : ∃ e ∈ l, e.1.isMoney = false) :
    (∃ m, m.Perm l ∧ print m = ['{', '}']) ∧ ∃ m, m.Perm l ∧ print m = Spec.listed m := by
  obtain ⟨e, he, hem⟩ := hm
  obtain ⟨f, hf, hfm⟩ := ho
  refine ⟨⟨e :: l.erase e, (List.perm_cons_erase he).symm, C152_counterexample_money e _ hem⟩, ⟨f :: l.erase f, (List.perm_cons_erase hf).symm, C152_listed_partial _ ?_⟩⟩
  intro x hx
  cases hx
  exact hfm

example : (∃ e ∈ [(Property.stock [1, 2], 30), (Property.cash Printing.usd, 4)], e.1.isMoney = true) ∧
    (∃ e ∈ [(Property.stock [1, 2], 30), (Property.cash Printing.usd, 4)], e.1.isMoney = false) := by decide

/-! ## Unique property -/

theorem unique_ne_brace (p : Property) (hp : Spec.Valid p) (s t : List Char) : p.name ++ ',' :: s ≠ '}' :: t := by
  intro h
  have := (name_chars p hp).2.2
  cases hn : p.name with
  | nil => rw [hn] at h; simp at h
  | cons x xs =>
    rw [hn] at h this
    simp only [List.cons_append, List.cons.injEq] at h
    exact this (h.1 ▸ List.mem_cons_self)

theorem unique_inj : ∀ (l m : List Property), (∀ e ∈ l, Spec.Valid e) → (∀ e ∈ m, Spec.Valid e) → uniqueItems l ++ ['}'] = uniqueItems m ++ ['}'] →
    l.map Spec.seen = m.map Spec.seen
  | [], [], _, _, _ => rfl
  | [], e :: m, _, hm, h => by
    simp only [uniqueItems, List.append_assoc, List.cons_append, List.nil_append] at h
    exact absurd h.symm (unique_ne_brace e (hm e (by simp)) _ _)
  | e :: l, [], hl, _, h => by
    simp only [uniqueItems, List.append_assoc, List.cons_append, List.nil_append] at h
    exact absurd h (unique_ne_brace e (hl e (by simp)) _ _)
  | e :: l, f :: m, hl, hm, h => by
    simp only [uniqueItems, List.append_assoc, List.cons_append, List.nil_append] at h
    obtain ⟨h1, h2⟩ := Printing.split_at ',' (name_chars e (hl e (by simp))).2.1 (name_chars f (hm f (by simp))).2.1 h
    simp only [List.cons.injEq, true_and] at h2
    have := unique_inj l m (fun x hx => hl x (by simp [hx])) (fun x hx => hm x (by simp [hx])) h2
    simp [this, (C152_names_partial e f (hl e (by simp)) (hm f (by simp))).1 h1]

/-- **C152**: two inventories of unique property are printed alike only if they have, in the order of iteration, items with the same names. -/
theorem C152_unique (l m : List Property) (hl : ∀ e ∈ l, Spec.Valid e) (hm : ∀ e ∈ m, Spec.Valid e) (h : printUnique l = printUnique m) :
    l.map Spec.seen = m.map Spec.seen := by
  simp only [printUnique, List.append_assoc, List.cons_append, List.nil_append, List.cons.injEq, true_and] at h
  exact unique_inj l m hl hm h

/-- **C152**: each item of an inventory of unique property is printed, followed by a comma. -/
theorem C152_unique_items (l : List Property) : printUnique l = ['{', ' '] ++ l.flatMap (fun p => p.name ++ [',', ' ']) ++ ['}'] := by
  have : uniqueItems l = l.flatMap (fun p => p.name ++ [',', ' ']) := by
    induction l with
    | nil => rfl
    | cons p l ih => simp [uniqueItems, ih]
  simp [printUnique, this]

example : printUnique [.bond [1], .bond [2]] = "{ bond \"1\", bond \"2\", }".toList := by decide +kernel

/-! ## Shortages -/

/-- **C152**: the message of a refused withdrawal shows what there was, what was to be withdrawn, and of which property. -/
theorem C152_shortage (a b c d : Nat) (n m : List Char) (h : shortage a b n = shortage c d m) : a = c ∧ b = d ∧ n = m := by
  simp only [shortage, List.append_assoc, List.cons_append, List.nil_append, List.cons.injEq, true_and] at h
  obtain ⟨h1, h2⟩ := Identity.split_unique _ _ _ _ (Printing.toDigits_isDigit a) (Printing.toDigits_isDigit c) (by simp) (by simp) h
  simp only [List.cons.injEq, true_and] at h2
  obtain ⟨h3, h4⟩ := Identity.split_unique _ _ _ _ (Printing.toDigits_isDigit b) (Printing.toDigits_isDigit d) (by simp) (by simp) h2
  simp only [List.cons.injEq, true_and] at h4
  exact ⟨Printing.toDigits_inj h1, Printing.toDigits_inj h3, List.append_left_inj _ |>.1 h4⟩

example : shortage 1 20 ['x'] = "insufficient inventory (1) for withdrawal (20) of x\n".toList := by decide +kernel

end Esl.Listing
