import Verif.Model.Attributes
import Verif.Model.OrderBook
import Verif.Props.Company
/-! C161: importing the Python module. C162: the best prices of order books in Python. C163: shares of companies that Python code issues. -/
namespace Esl.Attributes

/-! ## C161 -/

/-- Each class names as bases only classes that other modules defined, or that the module itself defines earlier. -/
def Spec.InOrder (known : List String) (ds : List Definition) : Prop :=
  ∀ before d after, ds = before ++ d :: after → ∀ b ∈ d.bases, b ∈ known ∨ ∃ e ∈ before, e.type = b

/-- **C161 (partial).** A module can be imported if and only if its classes are in order; and then all of its classes are there. -/
theorem C161_order_partial (known : List String) (ds : List Definition) :
    ((∃ r, define known ds = .ok r) ↔ Spec.InOrder known ds) ∧ ∀ r, define known ds = .ok r → ∀ t, t ∈ r ↔ t ∈ known ∨ ∃ d ∈ ds, d.type = t := by
  induction ds generalizing known with
  | nil =>
    refine ⟨⟨fun _ before d after h => by simp at h, fun _ => ⟨known, rfl⟩⟩, ?_⟩
    intro r h t
    injection h with h
    simp [h]
  | cons d ds ih =>
    by_cases hb : (d.bases.all fun b => known.contains b) = true
    · have hb' : ∀ b ∈ d.bases, b ∈ known := by simpa using hb
      simp only [define, if_pos hb]
      obtain ⟨ih1, ih2⟩ := ih (d.type :: known)
      constructor
      · rw [ih1]
        constructor
        · intro h before e after heq b hbe
          cases before with
          | nil =>
            rw [List.nil_append, List.cons.injEq] at heq
            exact Or.inl (hb' b (heq.1 ▸ hbe))
          | cons x before =>
            rw [List.cons_append, List.cons.injEq] at heq
            rcases h before e after heq.2 b hbe with h | ⟨y, hy, hyb⟩
            · rcases List.mem_cons.1 h with h | h
              · exact Or.inr ⟨x, List.mem_cons_self, by rw [← heq.1, h]⟩
              · exact Or.inl h
            · exact Or.inr ⟨y, List.mem_cons_of_mem _ hy, hyb⟩
        · intro h before e after heq b hbe
          rcases h (d :: before) e after (by rw [heq, List.cons_append]) b hbe with h | ⟨y, hy, hyb⟩
          · exact Or.inl (List.mem_cons_of_mem _ h)
          · rcases List.mem_cons.1 hy with hy | hy
            · exact Or.inl (by rw [← hyb, hy]; exact List.mem_cons_self)
            · exact Or.inr ⟨y, hy, hyb⟩
      · intro r hr t
        rw [ih2 r hr t, List.mem_cons]
        constructor
        · rintro ((h | h) | ⟨e, he, h⟩)
          · exact Or.inr ⟨d, List.mem_cons_self, h.symm⟩
          · exact Or.inl h
          · exact Or.inr ⟨e, List.mem_cons_of_mem _ he, h⟩
        · rintro (h | ⟨e, he, h⟩)
          · exact Or.inl (Or.inr h)
          · rcases List.mem_cons.1 he with he | he
            · exact Or.inl (Or.inl (by rw [← h, he]))
            · exact Or.inr ⟨e, he, h⟩
    · simp only [define, if_neg hb]
      refine ⟨⟨fun ⟨r, h⟩ => by simp at h, fun h => ?_⟩, fun r h => by simp at h⟩
      exfalso
      apply hb
      rw [List.all_eq_true]
      intro b hbd
      rcases h [] d ds rfl b hbd with h | ⟨e, he, _⟩
      · simpa using h
      · simp at he

example : define [] [⟨"base", []⟩, ⟨"derived", ["base"]⟩] = .ok ["derived", "base"] ∧ define [] [⟨"derived", ["base"]⟩, ⟨"base", []⟩] = .throws := by decide +kernel

/-- **C161 fails:** the library cannot be imported, whatever other modules were imported before, unless these define the classes of markets and of headers. (The library installs no other module.) -/
theorem C161_counterexample (known : List String) : (∃ r, importEsl known = .ok r) ↔ "market" ∈ known ∧ "header" ∈ known := by
  unfold importEsl
  constructor
  · intro h
    have h := (C161_order_partial known eslModule).1.1 h
    constructor
    · rcases h (eslModule.take 25) ⟨"centralized_exchange", ["market"]⟩ (eslModule.drop 26) (by decide +kernel) "market" (by simp) with h | ⟨e, he, h⟩
      · exact h
      · exact absurd h ((by decide +kernel : ∀ e ∈ eslModule.take 25, e.type ≠ "market") e he)
    · rcases h (eslModule.take 27) ⟨"logon_message", ["header"]⟩ (eslModule.drop 28) (by decide +kernel) "header" (by simp) with h | ⟨e, he, h⟩
      · exact h
      · exact absurd h ((by decide +kernel : ∀ e ∈ eslModule.take 27, e.type ≠ "header") e he)
  · rintro ⟨h1, h2⟩
    refine (C161_order_partial known eslModule).1.2 fun before d after heq b hb => ?_
    have hd : eslModule[before.length]? = some d := by rw [heq]; simp
    have ht : eslModule.take before.length = before := by rw [heq]; simp
    have hi : before.length < eslModule.length := (List.getElem?_eq_some_iff.1 hd).1
    have hcheck : ∀ i < eslModule.length, ∀ d ∈ eslModule[i]?, ∀ b ∈ d.bases, b = "market" ∨ b = "header" ∨ ∃ e ∈ eslModule.take i, e.type = b := by decide +kernel
    rcases hcheck _ hi d hd b hb with h | h | h
    · exact Or.inl (h ▸ h1)
    · exact Or.inl (h ▸ h2)
    · exact Or.inr (ht ▸ h)

example : importEsl [] = .throws ∧ ∃ r, importEsl ["header", "market"] = .ok r := ⟨by decide +kernel, (C161_counterexample _).2 (by decide +kernel)⟩

/-! ## C162 -/

/-- **C162 (partial).** For an order book with static memory, and any that Python knows as a basic order book, the best prices in Python are those of the book: the quote, or `None` if there is none. -/
theorem C162_best_partial {α : Type} (c : BookClass) (hc : c ≠ .tree) (q : Query) (best : Option α) : c.call q best = .ok best := by
  cases c
  · rfl
  · rfl
  · exact absurd rfl hc

example : BookClass.static.call .ask (some 105) = .ok (some 105) ∧ BookClass.static.call .bid (none : Option Nat) = .ok none := ⟨rfl, rfl⟩

/-- **C162 fails for the order book with trees:** after all insertions and cancellations, whether there are orders or not, to ask for either of the best prices raises an exception. -/
theorem C162_counterexample_tree (ops : List Book.Op) : BookClass.tree.call .ask (Book.run ops).ask = .throws ∧ BookClass.tree.call .bid (Book.run ops).bid = .throws := ⟨rfl, rfl⟩

/-! ## C163 -/

open Esl.Company (Register ShareClass totalShares uniqueShareholders State Policy Announcement computeDividend act)

theorem run_unchanged (p : Program) (l : List Statement) : (p.run l).outstanding = p.outstanding ∧ (p.run l).shareholders = p.shareholders := by
  induction l generalizing p with
  | nil => exact ⟨rfl, rfl⟩
  | cons s l ih =>
    show ((p.execute s).1.run l).outstanding = _ ∧ ((p.execute s).1.run l).shareholders = _
    rw [(ih _).1, (ih _).2]
    cases s with
    | read => exact ⟨rfl, rfl⟩
    | setItem x s n => simp only [Program.execute]; split <;> exact ⟨rfl, rfl⟩
    | deleteItem x s => simp only [Program.execute]; split <;> exact ⟨rfl, rfl⟩
    | assign _ => exact ⟨rfl, rfl⟩
    | readShareholders => exact ⟨rfl, rfl⟩
    | assignShareholders _ => exact ⟨rfl, rfl⟩

/-- **C163 (partial).** The shares outstanding can be read: the object has the number of shares of each class that the company has at that time. -/
theorem C163_read_partial (p : Program) : ((p.execute .read).1.objects[p.objects.length]?) = some p.outstanding ∧ (p.execute .read).2 = false := by
  simp [Program.execute]

/-- **C163 fails:** there is no Python program that gives a company shares or shareholders. After any statements the company that the program created has no shares and no shareholders, it pays no dividends from any profit,
and it announces none of the dividends that are scheduled. -/
theorem C163_counterexample (l : List Statement) :
    totalShares (Program.new.run l).outstanding = 0 ∧ uniqueShareholders (Program.new.run l).shareholders = [] ∧
    (∀ tender profit, computeDividend (Program.new.run l).outstanding tender profit = .ok []) ∧
    ∀ (st : State) (lower upper : Nat) (policy : Option Policy), (act (Program.new.run l).shareholders st lower upper policy).2.2 = [] := by
  obtain ⟨h1, h2⟩ := run_unchanged Program.new l
  rw [h1, h2]
  refine ⟨rfl, rfl, ?_, ?_⟩
  · intro tender profit
    simp [computeDividend, Program.new, totalShares]
  · intro st lower upper policy
    cases policy with
    | none => rfl
    | some p =>
      simp only [act, Program.new, uniqueShareholders, List.foldl_nil, List.map_nil]
      by_cases h1 : lower ≥ p.announcement <;> by_cases h2 : st.lastAnnounced < p.announcement <;> by_cases h3 : lower ≥ p.payable <;> simp [h1, h2, h3]

/-- **C163 fails:** in particular an assignment to an item of the attribute succeeds, and is lost: it can be read from that object, and not from the attribute. -/
theorem C163_counterexample_item (s : ShareClass) (n : Nat) :
    (Program.new.run [.read, .setItem 0 s n, .read]).objects = [[(s, n)], []] ∧ ((Program.new.run [.read]).execute (.setItem 0 s n)).2 = false := ⟨rfl, rfl⟩

example : totalShares (Company.Register.assign Program.new.outstanding Company.common 100) = 100 ∧ totalShares (Program.new.run [.read, .setItem 0 Company.common 100]).outstanding = 0 := by decide +kernel

end Esl.Attributes
