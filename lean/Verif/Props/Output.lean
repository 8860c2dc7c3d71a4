import Verif.Model.Output
import Verif.Lemmas.OrderBook
/-! C69: what is put into an output reaches the streams that were added to it. -/
namespace Esl.Out
open Esl.Text

/-! ## What is expected of a history of calls -/

/-- The names in the order in which outputs were created. The output that the `k`-th creation returned is number `k`. -/
def Spec.names (h : List Call) : List Str := h.filterMap fun c => match c with | .create n => some n | _ => none

/-- How often a stream was added under a name, counting from the time the name was first created. -/
def Spec.attached (h : List Call) (name : Str) (s : Nat) : Nat := (h.dropWhile fun c => c ≠ .create name).count (.add name s)

/-- A value and its time, as it is printed: between parentheses, separated by a comma, on a line of its own. -/
def Spec.line (t v : Str) : Str := ['('] ++ t ++ [',', ' '] ++ v ++ [')', '\n']

/-- Whether the output was the first one with its name. -/
def Spec.isFirst (h : List Call) (k : Nat) (name : Str) : Prop := (Spec.names h)[k]? = some name ∧ ∀ j, j < k → (Spec.names h)[j]? ≠ some name

instance (h : List Call) (k : Nat) (name : Str) : Decidable (Spec.isFirst h k name) := by unfold Spec.isFirst; infer_instance

/-- What a call adds to a stream, after the calls `before`: all values put into an output, in order, each on a line; one line for each time the stream was added to the output. -/
def Spec.adds (before : List Call) (s : Nat) : Call → Str
  | .put k t vs =>
    match (Spec.names before)[k]? with
    | some name => if Spec.isFirst before k name then vs.flatMap fun v => (List.replicate (Spec.attached before name s) (Spec.line t v)).flatten else []
    | none => []
  | _ => []

/-- Collects something from each call of a history and the calls before it, in order. -/
def Spec.over {α : Type} (f : List Call → Call → List α) (h : List Call) : List α := (List.range h.length).flatMap fun i => match h[i]? with | some c => f (h.take i) c | none => []

/-- What a stream contains after a history of calls. -/
def Spec.contents (h : List Call) (s : Nat) : Str := Spec.over (fun before c => Spec.adds before s c) h

/-- What was put into an output, once it existed. -/
def Spec.puts (h : List Call) (k : Nat) : List (Str × List Str) :=
  Spec.over (fun before c => match c with | .put j t vs => if j = k ∧ k < (Spec.names before).length then [(t, vs)] else [] | _ => []) h

/-! ## Lemmas -/

theorem over_snoc {α : Type} (f : List Call → Call → List α) (h : List Call) (c : Call) : Spec.over f (h ++ [c]) = Spec.over f h ++ f h c := by
  unfold Spec.over
  rw [List.length_append, List.length_singleton, List.range_succ, List.flatMap_append]
  congr 1
  · have : ∀ l : List Nat, (∀ i ∈ l, i < h.length) → (l.flatMap fun i => match (h ++ [c])[i]? with | some c' => f ((h ++ [c]).take i) c' | none => []) =
        l.flatMap fun i => match h[i]? with | some c' => f (h.take i) c' | none => [] := by
      intro l hl
      induction l with
      | nil => rfl
      | cons i l ih =>
        have hi := hl i (by simp)
        rw [List.flatMap_cons, List.flatMap_cons, ih fun j hj => hl j (List.mem_cons_of_mem _ hj), List.getElem?_append_left hi, List.take_append_of_le_length (by omega)]
    exact this _ fun i hi => List.mem_range.1 hi
  · simp

theorem contents_snoc (h : List Call) (c : Call) (s : Nat) : Spec.contents (h ++ [c]) s = Spec.contents h s ++ Spec.adds h s c := over_snoc _ h c

theorem names_snoc_create (h : List Call) (n : Str) : Spec.names (h ++ [.create n]) = Spec.names h ++ [n] := by simp [Spec.names]
theorem names_snoc_add (h : List Call) (n : Str) (s : Nat) : Spec.names (h ++ [.add n s]) = Spec.names h := by simp [Spec.names]
theorem names_snoc_put (h : List Call) (k : Nat) (t : Str) (vs : List Str) : Spec.names (h ++ [.put k t vs]) = Spec.names h := by simp [Spec.names]

theorem create_mem (h : List Call) (n : Str) : Call.create n ∈ h ↔ n ∈ Spec.names h := by
  simp only [Spec.names, List.mem_filterMap]
  constructor
  · intro hc; exact ⟨_, hc, rfl⟩
  · rintro ⟨c, hc, he⟩
    cases c with
    | create m => injection he with he; rw [← he]; exact hc
    | add => cases he
    | put => cases he

theorem dropWhile_snoc (p : Call → Bool) (h : List Call) (c : Call) : (h ++ [c]).dropWhile p = if h.all p then (if p c then [] else [c]) else h.dropWhile p ++ [c] := by
  induction h with
  | nil =>
    rw [List.nil_append, List.dropWhile_cons]
    simp
  | cons x h ih =>
    rw [List.cons_append, List.dropWhile_cons, List.dropWhile_cons, List.all_cons, ih]
    by_cases hx : p x <;> simp [hx]

theorem all_ne_iff (h : List Call) (n : Str) : (h.all fun c => decide (c ≠ .create n)) = true ↔ n ∉ Spec.names h := by
  rw [← create_mem]
  simp only [List.all_eq_true, decide_eq_true_eq]
  constructor
  · intro ha hc; exact ha _ hc rfl
  · intro hn x hx e; exact hn (e ▸ hx)

theorem attached_none (h : List Call) (n : Str) (s : Nat) (hn : n ∉ Spec.names h) : Spec.attached h n s = 0 := by
  unfold Spec.attached
  have : h.dropWhile (fun c => decide (c ≠ .create n)) = [] := by
    have hall : ∀ l : List Call, (∀ x ∈ l, decide (x ≠ .create n) = true) → l.dropWhile (fun c => decide (c ≠ .create n)) = [] := by
      intro l hl
      induction l with
      | nil => rfl
      | cons x l ih => rw [List.dropWhile_cons, if_pos (hl x (by simp)), ih fun y hy => hl y (List.mem_cons_of_mem _ hy)]
    apply hall
    intro x hx
    simp only [decide_eq_true_eq]
    rintro rfl
    exact hn ((create_mem _ _).1 hx)
  rw [this]; rfl

theorem attached_snoc (h : List Call) (n : Str) (s : Nat) (c : Call) (hn : n ∈ Spec.names h) :
    Spec.attached (h ++ [c]) n s = Spec.attached h n s + if c = .add n s then 1 else 0 := by
  unfold Spec.attached
  rw [dropWhile_snoc, if_neg (by rw [all_ne_iff]; simpa using hn), List.count_append, List.count_singleton]
  simp [beq_iff_eq]

theorem attached_snoc_ne (h : List Call) (n : Str) (s : Nat) (c : Call) (hc : c ≠ .add n s) : Spec.attached (h ++ [c]) n s = Spec.attached h n s := by
  by_cases hn : n ∈ Spec.names h
  · rw [attached_snoc h n s c hn, if_neg hc]; rfl
  · rw [attached_none h n s hn]
    unfold Spec.attached
    rw [dropWhile_snoc, if_pos (by rw [all_ne_iff]; exact hn)]
    split
    · rfl
    · rw [List.count_singleton, if_neg (by simpa using hc)]

theorem line_eq (t v : Str) : line t v = Spec.line t v := by
  simp [line, Spec.line, printTuple, tupleElements]

theorem write_eq (t v : Str) (streams : List Nat) (w : Nat → Str) (s : Nat) : write t v streams w s = w s ++ (List.replicate (streams.count s) (Spec.line t v)).flatten := by
  induction streams generalizing w with
  | nil => simp [write]
  | cons x xs ih =>
    unfold write
    rw [ih, List.count_cons]
    by_cases h : s = x
    · subst h
      simp only [if_true, beq_self_eq_true, List.append_assoc, line_eq, List.replicate_succ, List.flatten_cons]
    · have : (x == s) = false := by simpa using fun e : x = s => h e.symm
      simp [h, this]

theorem writeAll_eq (t : Str) (streams : List Nat) (vs : List Str) (w : Nat → Str) (s : Nat) :
    writeAll t streams vs w s = w s ++ vs.flatMap fun v => (List.replicate (streams.count s) (Spec.line t v)).flatten := by
  induction vs generalizing w with
  | nil => simp [writeAll]
  | cons v vs ih =>
    unfold writeAll
    rw [ih, write_eq, List.flatMap_cons, List.append_assoc]

/-- What holds after a history of calls. -/
structure Good (h : List Call) (p : State) : Prop where
  len : p.heap.length = (Spec.names h).length
  buffered : ∀ (k : Nat) (o : Output), p.heap[k]? = some o → o.buffered = false
  values : ∀ (k : Nat) (o : Output), p.heap[k]? = some o → o.values = Spec.puts h k
  registered : ∀ n k, (n, k) ∈ p.outputs ↔ Spec.isFirst h k n
  distinct : ∀ n j k, (n, j) ∈ p.outputs → (n, k) ∈ p.outputs → j = k
  streams : ∀ (k : Nat) (o : Output), p.heap[k]? = some o → ∀ s, o.streams.count s = match (Spec.names h)[k]? with | some n => if Spec.isFirst h k n then Spec.attached h n s else 0 | none => 0
  written : ∀ s, p.written s = Spec.contents h s

theorem first_exists (l : List Str) (n : Str) (h : n ∈ l) : ∃ k : Nat, l[k]? = some n ∧ ∀ j, j < k → l[j]? ≠ some n := by
  induction l with
  | nil => cases h
  | cons x l ih =>
    by_cases hx : x = n
    · exact ⟨0, by rw [hx]; rfl, fun j hj => by omega⟩
    · have hl : n ∈ l := by
        rcases List.mem_cons.1 h with h | h
        · exact absurd h.symm hx
        · exact h
      obtain ⟨k, h1, h2⟩ := ih hl
      refine ⟨k + 1, by simpa using h1, ?_⟩
      intro j hj
      cases j with
      | zero => simpa using hx
      | succ j => simpa using h2 j (by omega)

theorem isFirst_append (h : List Call) (c : Call) (l : List Str) (hl : Spec.names (h ++ [c]) = Spec.names h ++ l) (k : Nat) (n : Str) (hk : k < (Spec.names h).length) :
    Spec.isFirst (h ++ [c]) k n ↔ Spec.isFirst h k n := by
  unfold Spec.isFirst
  rw [hl, List.getElem?_append_left hk]
  constructor
  · rintro ⟨h1, h2⟩
    refine ⟨h1, fun j hj => ?_⟩
    have := h2 j hj
    rwa [List.getElem?_append_left (by omega)] at this
  · rintro ⟨h1, h2⟩
    refine ⟨h1, fun j hj => ?_⟩
    rw [List.getElem?_append_left (by omega)]
    exact h2 j hj

theorem puts_none (h : List Call) (k : Nat) (hk : (Spec.names h).length ≤ k) : Spec.puts h k = [] := by
  induction h using Book.snoc_induct with
  | h0 => rfl
  | h1 h c ih =>
    have hle : (Spec.names h).length ≤ (Spec.names (h ++ [c])).length := by simp [Spec.names]
    unfold Spec.puts at ih ⊢
    rw [over_snoc, ih (by omega), List.nil_append]
    cases c with
    | create => rfl
    | add => rfl
    | put j t vs =>
      simp only
      rw [if_neg (by omega)]

theorem good_run (h : List Call) : Good h (run h) := by
  induction h using Book.snoc_induct with
  | h0 =>
    exact ⟨rfl, fun _ _ h => by simp [run, State.init] at h, fun _ _ h => by simp [run, State.init] at h, fun n k => by simp [run, State.init, Spec.isFirst, Spec.names],
      fun _ _ _ h => by simp [run, State.init] at h, fun _ _ h => by simp [run, State.init] at h, fun s => rfl⟩
  | h1 h c ih =>
    have hrun : run (h ++ [c]) = (run h).call c := by simp [run]
    rw [hrun]
    generalize run h = p at ih
    cases c with
    | create n =>
      have hn := names_snoc_create h n
      have hlen : ∀ k, k < p.heap.length ↔ k < (Spec.names h).length := fun k => by rw [ih.len]
      have hget : ∀ k o, (p.heap ++ [(⟨n, [], false, []⟩ : Output)])[k]? = some o → (p.heap[k]? = some o ∧ k < (Spec.names h).length) ∨ (k = (Spec.names h).length ∧ o = ⟨n, [], false, []⟩) := by
        intro k o ho
        rcases Nat.lt_or_ge k p.heap.length with hk | hk
        · rw [List.getElem?_append_left hk] at ho
          exact Or.inl ⟨ho, (hlen k).1 hk⟩
        · rw [List.getElem?_append_right hk] at ho
          rcases Nat.lt_or_ge 0 (k - p.heap.length) with h1 | h1
          · rw [List.getElem?_eq_none (by simp; omega)] at ho; cases ho
          · have : k - p.heap.length = 0 := by omega
            rw [this] at ho
            injection ho with ho
            exact Or.inr ⟨by rw [← ih.len]; omega, ho.symm⟩
      have hfirst_new : Spec.isFirst (h ++ [.create n]) (Spec.names h).length n ↔ n ∉ Spec.names h := by
        unfold Spec.isFirst
        rw [hn]
        constructor
        · rintro ⟨_, h2⟩ hm
          obtain ⟨j, hj⟩ := List.getElem?_of_mem hm
          have hjl : j < (Spec.names h).length := (List.getElem?_eq_some_iff.1 hj).1
          have := h2 j hjl
          rw [List.getElem?_append_left hjl] at this
          exact this hj
        · intro hm
          refine ⟨by simp, fun j hj => ?_⟩
          rw [List.getElem?_append_left hj]
          intro e
          exact hm (List.mem_of_getElem? e)
      have hany : p.outputs.any (·.1 == n) = true ↔ n ∈ Spec.names h := by
        rw [List.any_eq_true]
        constructor
        · rintro ⟨⟨m, k⟩, hm, he⟩
          rw [beq_iff_eq] at he
          simp only at he
          subst he
          exact List.mem_of_getElem? ((ih.registered m k).1 hm).1
        · intro hm
          obtain ⟨k, h1, h2⟩ := first_exists _ _ hm
          exact ⟨(n, k), (ih.registered n k).2 ⟨h1, h2⟩, by simp⟩
      have hputs : ∀ k, Spec.puts (h ++ [.create n]) k = Spec.puts h k := by intro k; unfold Spec.puts; rw [over_snoc]; simp
      have hreg : ∀ m k, (m, k) ∈ ((p.create n).1).outputs ↔ Spec.isFirst (h ++ [.create n]) k m := by
        intro m k
        have hcase : k < (Spec.names h).length ∨ k = (Spec.names h).length ∨ (Spec.names h).length < k := by omega
        have hold : (m, k) ∈ p.outputs → k < (Spec.names h).length := fun hm => (List.getElem?_eq_some_iff.1 ((ih.registered m k).1 hm).1).1
        simp only [State.create]
        by_cases ha : p.outputs.any (·.1 == n)
        · rw [if_pos ha]
          rcases hcase with hk | hk | hk
          · rw [ih.registered, isFirst_append h _ _ hn k m hk]
          · constructor
            · intro hm; exact absurd (hold hm) (by omega)
            · intro hf
              have hmn : m = n := by
                have := hf.1
                rw [hn, hk] at this
                simpa using this.symm
              subst hmn
              rw [hk, hfirst_new] at hf
              exact absurd (hany.1 ha) hf
          · constructor
            · intro hm; exact absurd (hold hm) (by omega)
            · intro hf
              have := hf.1
              rw [hn, List.getElem?_eq_none (by simp; omega)] at this
              cases this
        · rw [if_neg ha, List.mem_append, List.mem_singleton]
          have hnn : n ∉ Spec.names h := fun hm => ha (hany.2 hm)
          rcases hcase with hk | hk | hk
          · rw [ih.registered, isFirst_append h _ _ hn k m hk]
            constructor
            · rintro (h1 | h1)
              · exact h1
              · injection h1 with _ h1; rw [ih.len] at h1; omega
            · exact Or.inl
          · constructor
            · rintro (h1 | h1)
              · exact absurd (hold h1) (by omega)
              · injection h1 with h1 _
                subst h1
                rw [hk]; exact hfirst_new.2 hnn
            · intro hf
              right
              have : m = n := by
                have := hf.1
                rw [hn, hk] at this
                simpa using this.symm
              rw [this, hk, ih.len]
          · constructor
            · rintro (h1 | h1)
              · exact absurd (hold h1) (by omega)
              · injection h1 with _ h1; rw [ih.len] at h1; omega
            · intro hf
              have := hf.1
              rw [hn, List.getElem?_eq_none (by simp; omega)] at this
              cases this
      refine ⟨?_, ?_, ?_, hreg, ?_, ?_, ?_⟩
      · simp [State.call, State.create, hn, ih.len]
      · intro k o ho
        rcases hget k o ho with ⟨h1, _⟩ | ⟨_, rfl⟩
        · exact ih.buffered k o h1
        · rfl
      · intro k o ho
        rw [hputs]
        rcases hget k o ho with ⟨h1, _⟩ | ⟨rfl, rfl⟩
        · exact ih.values k o h1
        · exact (puts_none h _ (Nat.le_refl _)).symm
      · intro m j k hj hk
        rw [show (p.call (.create n)).outputs = ((p.create n).1).outputs from rfl] at hj hk
        rw [hreg] at hj hk
        rcases Nat.lt_trichotomy j k with hlt | rfl | hlt
        · exact absurd hj.1 (hk.2 j hlt)
        · rfl
        · exact absurd hk.1 (hj.2 k hlt)
      · intro k o ho s
        rcases hget k o ho with ⟨h1, hk⟩ | ⟨rfl, rfl⟩
        · rw [ih.streams k o h1 s, hn, List.getElem?_append_left hk]
          cases (Spec.names h)[k]? with
          | none => rfl
          | some m =>
            simp only [isFirst_append h _ _ hn k m hk]
            rw [attached_snoc_ne h m s _ (by simp)]
        · rw [hn]
          simp only [List.getElem?_concat_length]
          split
          · rename_i hf
            rw [attached_snoc_ne h n s _ (by simp), attached_none h n s (hfirst_new.1 hf)]
            rfl
          · rfl
      · intro s
        rw [contents_snoc]
        simp only [Spec.adds, List.append_nil]
        exact ih.written s
    | add n r =>
      have hn := names_snoc_add h n r
      have hnm : Spec.names (h ++ [.add n r]) = Spec.names h ++ [] := by rw [hn, List.append_nil]
      have hfst : ∀ k m, Spec.isFirst (h ++ [.add n r]) k m ↔ Spec.isFirst h k m := by
        intro k m; unfold Spec.isFirst; rw [hn]
      have hputs : ∀ k, Spec.puts (h ++ [.add n r]) k = Spec.puts h k := by intro k; unfold Spec.puts; rw [over_snoc]; simp
      have hcont : ∀ s, Spec.contents (h ++ [.add n r]) s = Spec.contents h s := by
        intro s; rw [contents_snoc]; simp [Spec.adds]
      cases hf : p.outputs.find? (·.1 == n) with
      | none =>
        have hnn : n ∉ Spec.names h := by
          intro hm
          obtain ⟨k, h1, h2⟩ := first_exists _ _ hm
          have := List.find?_eq_none.1 hf (n, k) ((ih.registered n k).2 ⟨h1, h2⟩)
          simp at this
        have hcall : p.call (.add n r) = p := by simp only [State.call, State.add, hf]
        rw [hcall]
        refine ⟨by rw [hn]; exact ih.len, ih.buffered, fun k o ho => by rw [hputs]; exact ih.values k o ho, fun m k => by rw [hfst]; exact ih.registered m k, ih.distinct, ?_, fun s => by rw [hcont]; exact ih.written s⟩
        intro k o ho s
        rw [ih.streams k o ho s, hn]
        cases hk : (Spec.names h)[k]? with
        | none => rfl
        | some m =>
          simp only [hfst]
          have hmn : m ≠ n := fun e => hnn (e ▸ List.mem_of_getElem? hk)
          rw [attached_snoc_ne h m s _ (by simpa using fun e : n = m => absurd e.symm hmn)]
      | some x =>
        obtain ⟨n', i⟩ := x
        have hn' : n' = n := by simpa using List.find?_some hf
        subst hn'
        have hmem : (n', i) ∈ p.outputs := List.mem_of_find?_eq_some hf
        have hfi := (ih.registered n' i).1 hmem
        have hnmem : n' ∈ Spec.names h := List.mem_of_getElem? hfi.1
        have hcall : p.call (.add n' r) = { p with heap := p.heap.modify i fun o => { o with streams := o.streams ++ [r] } } := by simp only [State.call, State.add, hf]
        rw [hcall]
        have hget : ∀ (k : Nat) (o : Output), (p.heap.modify i fun o => { o with streams := o.streams ++ [r] })[k]? = some o →
            ∃ o', p.heap[k]? = some o' ∧ o = if i = k then { o' with streams := o'.streams ++ [r] } else o' := by
          intro k o ho
          rw [List.getElem?_modify] at ho
          cases hk : p.heap[k]? with
          | none => rw [hk] at ho; cases ho
          | some o' =>
            rw [hk] at ho
            refine ⟨o', rfl, ?_⟩
            injection ho with ho
            exact ho.symm
        refine ⟨by rw [hn]; simpa using ih.len, ?_, ?_, fun m k => by rw [hfst]; exact ih.registered m k, ih.distinct, ?_, fun s => by rw [hcont]; exact ih.written s⟩
        · intro k o ho
          obtain ⟨o', h1, h2⟩ := hget k o ho
          rw [h2]
          split <;> exact ih.buffered k o' h1
        · intro k o ho
          obtain ⟨o', h1, h2⟩ := hget k o ho
          rw [h2, hputs]
          split <;> exact ih.values k o' h1
        · intro k o ho s
          obtain ⟨o', h1, h2⟩ := hget k o ho
          have hs := ih.streams k o' h1 s
          rw [hn]
          cases hk : (Spec.names h)[k]? with
          | none =>
            have : p.heap.length ≤ k := by rw [ih.len]; exact List.getElem?_eq_none_iff.1 hk
            rw [List.getElem?_eq_none this] at h1
            cases h1
          | some m =>
            rw [hk] at hs
            simp only [hfst] at hs ⊢
            by_cases hik : i = k
            · subst hik
              have hm : m = n' := by
                have := hfi.1
                rw [hk] at this
                injection this
              subst hm
              rw [if_pos hfi] at hs ⊢
              rw [h2, if_pos rfl, attached_snoc h m s _ hnmem, ← hs]
              simp only [List.count_append, List.count_singleton]
              congr 1
              by_cases hrs : r = s <;> simp [hrs]
            · rw [h2, if_neg hik, hs]
              split
              · rename_i hfk
                have hm : m ≠ n' := by
                  rintro rfl
                  exact hik (ih.distinct m i k hmem ((ih.registered m k).2 hfk))
                rw [attached_snoc_ne h m s _ (by simpa using fun e : n' = m => absurd e.symm hm)]
              · rfl
    | put i t vs =>
      have hn := names_snoc_put h i t vs
      have hfst : ∀ k m, Spec.isFirst (h ++ [.put i t vs]) k m ↔ Spec.isFirst h k m := by
        intro k m; unfold Spec.isFirst; rw [hn]
      have hatt : ∀ m s, Spec.attached (h ++ [.put i t vs]) m s = Spec.attached h m s := fun m s => attached_snoc_ne h m s _ (by simp)
      have hputs : ∀ k, Spec.puts (h ++ [.put i t vs]) k = Spec.puts h k ++ if i = k ∧ k < (Spec.names h).length then [(t, vs)] else [] := by
        intro k; unfold Spec.puts; rw [over_snoc]
      cases hi : p.heap[i]? with
      | none =>
        have hnone : (Spec.names h)[i]? = none := by
          rw [List.getElem?_eq_none_iff, ← ih.len]; exact List.getElem?_eq_none_iff.1 hi
        have hcall : p.call (.put i t vs) = p := by simp only [State.call, State.put, hi]
        rw [hcall]
        refine ⟨by rw [hn]; exact ih.len, ih.buffered, ?_, fun m k => by rw [hfst]; exact ih.registered m k, ih.distinct, ?_, ?_⟩
        · intro k o ho
          rw [hputs, if_neg, List.append_nil]
          · exact ih.values k o ho
          · rintro ⟨rfl, _⟩; rw [hi] at ho; cases ho
        · intro k o ho s
          rw [ih.streams k o ho s, hn]
          cases (Spec.names h)[k]? with
          | none => rfl
          | some m => simp only [hfst, hatt]
        · intro s
          rw [contents_snoc]
          simp only [Spec.adds, hnone, List.append_nil]
          exact ih.written s
      | some o =>
        have hil : i < p.heap.length := (List.getElem?_eq_some_iff.1 hi).1
        have hiln : i < (Spec.names h).length := by rw [← ih.len]; exact hil
        obtain ⟨m, hm⟩ : ∃ m, (Spec.names h)[i]? = some m := ⟨_, List.getElem?_eq_getElem hiln⟩
        have hcall : p.call (.put i t vs) = { p with heap := p.heap.set i { o with values := o.values ++ [(t, vs)] }, written := writeAll t o.streams vs p.written } := by
          simp only [State.call, State.put, hi, ih.buffered i o hi, Bool.false_eq_true, if_false]
        rw [hcall]
        have hget : ∀ (k : Nat) (q : Output), (p.heap.set i { o with values := o.values ++ [(t, vs)] })[k]? = some q →
            ∃ o', p.heap[k]? = some o' ∧ q = if i = k then { o' with values := o'.values ++ [(t, vs)] } else o' := by
          intro k q hq
          by_cases hik : i = k
          · subst hik
            rw [List.getElem?_set_self hil] at hq
            injection hq with hq
            exact ⟨o, hi, by rw [if_pos rfl]; exact hq.symm⟩
          · rw [List.getElem?_set_ne hik] at hq
            exact ⟨q, hq, by rw [if_neg hik]⟩
        refine ⟨by rw [hn]; simpa using ih.len, ?_, ?_, fun m k => by rw [hfst]; exact ih.registered m k, ih.distinct, ?_, ?_⟩
        · intro k q hq
          obtain ⟨o', h1, h2⟩ := hget k q hq
          rw [h2]
          split <;> exact ih.buffered k o' h1
        · intro k q hq
          obtain ⟨o', h1, h2⟩ := hget k q hq
          rw [h2, hputs]
          by_cases hik : i = k
          · subst hik
            rw [if_pos rfl, if_pos ⟨rfl, hiln⟩]
            simp only
            rw [ih.values i o' h1]
          · rw [if_neg hik, if_neg (fun e => hik e.1), List.append_nil]
            exact ih.values k o' h1
        · intro k q hq s
          obtain ⟨o', h1, h2⟩ := hget k q hq
          have hst : q.streams = o'.streams := by rw [h2]; split <;> rfl
          rw [hst, ih.streams k o' h1 s, hn]
          cases (Spec.names h)[k]? with
          | none => rfl
          | some m => simp only [hfst, hatt]
        · intro s
          rw [contents_snoc]
          simp only [Spec.adds, hm]
          rw [writeAll_eq, ih.written s]
          congr 1
          have hs := ih.streams i o hi s
          rw [hm] at hs
          simp only at hs
          by_cases hf : Spec.isFirst h i m
          · rw [if_pos hf] at hs ⊢
            rw [hs]
          · rw [if_neg hf] at hs ⊢
            rw [hs]
            simp

/-- **C69 (partial).** For every history of creating outputs, adding streams and putting values, each stream contains exactly what it should: for each `put` to an output that was the first with its name, in the order
of the calls, all values with their time, each on one line for each time the stream had been added under the name by then; and nothing else.
Missing: outputs that are created with a name that is in use; see the counterexample. -/
theorem C69_streams_partial (h : List Call) (s : Nat) : (run h).written s = Spec.contents h s := (good_run h).written s

/-- **C69, one line each.** In particular: a value put into the first output of a name, to which the stream was added exactly once, is written to it exactly once, right after everything that was there before. -/
theorem C69_once (h : List Call) (k : Nat) (name : Str) (s : Nat) (hf : Spec.isFirst h k name) (ha : Spec.attached h name s = 1) (t : Str) (vs : List Str) :
    (run (h ++ [.put k t vs])).written s = (run h).written s ++ (vs.map (Spec.line t)).flatten := by
  rw [C69_streams_partial, C69_streams_partial, contents_snoc]
  simp only [Spec.adds, hf.1, if_pos hf, ha, List.replicate_one, List.flatten_singleton]
  rw [List.flatMap_def]

/-- **C69, the recorded history.** Each output records all values that were put into it, with their times, in order; whether or not it has streams, and whether or not its name was in use. -/
theorem C69_values (h : List Call) (k : Nat) (o : Output) (ho : (run h).heap[k]? = some o) : o.values = Spec.puts h k := (good_run h).values k o ho

/-- **C69, streams without an output.** Adding a stream under a name throws if and only if no output was created with the name. -/
theorem C69_add (h : List Call) (name : Str) (s : Nat) : (run h).add name s = .throws ↔ Call.create name ∉ h := by
  have g := good_run h
  rw [create_mem]
  unfold State.add
  constructor
  · intro ht hm
    obtain ⟨k, h1, h2⟩ := first_exists _ _ hm
    cases hf : (run h).outputs.find? (·.1 == name) with
    | none =>
      have := List.find?_eq_none.1 hf (name, k) ((g.registered name k).2 ⟨h1, h2⟩)
      simp at this
    | some x => rw [hf] at ht; cases ht
  · intro hm
    cases hf : (run h).outputs.find? (·.1 == name) with
    | none => rfl
    | some x =>
      obtain ⟨n, i⟩ := x
      have hn : n = name := by simpa using List.find?_some hf
      subst hn
      exact absurd (List.mem_of_getElem? ((g.registered n i).1 (List.mem_of_find?_eq_some hf)).1) hm

/-- **C69, negation.** If an output is created with a name that is in use, what is put into it never reaches any stream, whatever streams are added under the name later. -/
theorem C69_counterexample_second_output (h : List Call) (name : Str) (k : Nat) (hk : (Spec.names h)[k]? = some name) (hnot : ¬Spec.isFirst h k name) (t : Str) (vs : List Str) (s : Nat) :
    (run (h ++ [.put k t vs])).written s = (run h).written s := by
  rw [C69_streams_partial, C69_streams_partial, contents_snoc]
  simp only [Spec.adds, hk, if_neg hnot, List.append_nil]

/-- Non-vacuity: two outputs, a stream added to both, another added to one; and an output made with a name in use. -/
example :
    let h : List Call := [.create ['a'], .create ['b'], .add ['a'] 0, .add ['b'] 0, .add ['b'] 1, .put 0 ['1'] [['x']], .put 1 ['2'] [['y'], ['z']], .add ['a'] 1, .put 0 ['3'] [['w']], .create ['a'], .put 2 ['4'] [['v']]]
    (run h).written 0 = ['(', '1', ',', ' ', 'x', ')', '\n', '(', '2', ',', ' ', 'y', ')', '\n', '(', '2', ',', ' ', 'z', ')', '\n', '(', '3', ',', ' ', 'w', ')', '\n'] ∧
    (run h).written 1 = ['(', '2', ',', ' ', 'y', ')', '\n', '(', '2', ',', ' ', 'z', ')', '\n', '(', '3', ',', ' ', 'w', ')', '\n'] ∧
    Spec.isFirst h 0 ['a'] ∧ Spec.attached h ['a'] 1 = 1 ∧ (Spec.names h)[2]? = some ['a'] ∧ ¬Spec.isFirst h 2 ['a'] := by
  decide +kernel

end Esl.Out
