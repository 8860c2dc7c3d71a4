import Verif.Lemmas.Identity
/-! # C01-C04: identities and entity creation -/
namespace Esl.Identity
open Spec

/-- **C01.** The comparison operators of identities are the dictionary order of the digits: `<` is
exactly `Before`, `==` is equality, exactly one of `a<b`, `a==b`, `b<a` holds, `<` is transitive,
and the derived operators agree. -/
theorem C01_order :
    (∀ a b, lt a b = true ↔ Before a b) ∧
    (∀ a b, eq a b = true ↔ a = b) ∧
    (∀ a b, ne a b = true ↔ a ≠ b) ∧
    (∀ a b, le a b = true ↔ (Before a b ∨ a = b)) ∧
    (∀ a b, gt a b = true ↔ Before b a) ∧
    (∀ a b, ge a b = true ↔ (Before b a ∨ a = b)) ∧
    (∀ a, ¬ Before a a) ∧
    (∀ a b c, Before a b → Before b c → Before a c) ∧
    (∀ a b, Before a b ∨ a = b ∨ Before b a) ∧
    (∀ a b, Before a b → a ≠ b ∧ ¬ Before b a) := by
  have irr : ∀ a, ¬ Before a a := fun a h => by
    have := (lexCompare_iff a a).2 h
    rw [lexCompare_irrefl] at this; exact absurd this (by decide)
  have tr : ∀ a b c, Before a b → Before b c → Before a c := fun a b c h1 h2 =>
    (lexCompare_iff _ _).1 (lexCompare_trans a b c ((lexCompare_iff _ _).2 h1) ((lexCompare_iff _ _).2 h2))
  refine ⟨lexCompare_iff, eq_iff, ?_, ?_, fun a b => lexCompare_iff b a, ?_, irr, tr, ?_, ?_⟩
  · intro a b; simp only [ne, Bool.not_eq_true', ← Bool.not_eq_true, eq_iff]
  · intro a b; simp [le, lt, eq_iff, lexCompare_iff]
  · intro a b; simp [ge, gt, eq_iff, lexCompare_iff]
  · intro a b; simpa only [lexCompare_iff] using lexCompare_total a b
  · intro a b h
    exact ⟨fun e => irr a (by rw [e] at h ⊢; exact h), fun h' => irr a (tr _ _ _ h h')⟩

/-- **C01.** An entity sorts strictly before everything it creates. -/
theorem C01_child_after_parent (e : Entity) : Before e.identifier e.create.1 :=
  Or.inl ⟨e.children, [], rfl⟩

example : lt [1, 5] [1, 5, 0] = true ∧ lt [1, 9] [2] = true ∧ lt [2] [1, 9] = false := by decide

/-- **C02.** In every history of `create` calls (on the root or on any entity created before) made
from a fresh root with identifier `r`, all identifiers, including the root's, are pairwise
distinct. `ops.length < 2^64` keeps every child counter below its wrap-around. -/
theorem C02_unique_identifiers (r : Ident) (ops : List Op)
    (honly : ∀ op ∈ ops, ∃ i, op = Op.create i) (hlen : ops.length < 2 ^ 64) :
    ((World.init r).run ops).issued.Nodup := by
  have key : ∀ (ops : List Op) (n : Nat) (w : World), Inv r n w →
      (∀ op ∈ ops, ∃ i, op = Op.create i) → n + ops.length < 2 ^ 64 →
      Inv r (n + ops.length) (w.run ops) := by
    intro ops
    induction ops with
    | nil => intro n w h _ _; simpa [World.run] using h
    | cons op ops ih =>
      intro n w h ho hl
      obtain ⟨i, hi⟩ := ho op (by simp)
      subst hi
      simp only [List.length_cons] at hl ⊢
      have h' := h.create (by omega) i
      have := ih (n + 1) _ h' (fun op hop => ho op (by simp [hop])) (by omega)
      have e : n + (ops.length + 1) = n + 1 + ops.length := by omega
      rw [e]
      exact this
  exact (key ops 0 _ (Inv.init r) honly (by omega)).nodup

/-- **C02.** The history does create: the number of identifiers is one plus the number of calls made
on existing entities, and each entity that exists carries one of the issued identifiers. -/
theorem C02_every_create_issues (w : World) (i : Nat) (hi : i < w.entities.length) :
    (w.step (.create i)).issued.length = w.issued.length + 1 ∧
    (w.step (.create i)).entities.length = w.entities.length + 1 ∧
    ∃ x, (w.step (.create i)).issued = w.issued ++ [x] ∧
      ∃ e, w.entities[i]? = some e ∧ x = e.identifier ++ [e.children] := by
  have he : w.entities[i]? = some w.entities[i] := List.getElem?_eq_getElem hi
  simp only [World.step, he, Entity.create, Entity.fresh]
  refine ⟨by simp, by simp, _, rfl, _, rfl, rfl⟩

/-- Non-vacuity of C02: a tree of depth three. -/
example : ((World.init [7]).run [.create 0, .create 0, .create 1, .create 1, .create 0]).issued =
    [[7], [7, 0], [7, 1], [7, 0, 0], [7, 0, 1], [7, 2]] := by decide

/-- **C03 (negation).** Copying an agent makes identifiers repeat: whenever an agent that has already
created a child (and no more than 2^64-1 of them) is copied with the agent copy constructor, the
first identifier created by the copy is the first identifier created by the original. -/
theorem C03_counterexample :
    ∃ ops : List Op, ¬ ((World.init [0]).run ops).issued.Nodup := by
  exact ⟨[.create 0, .copyAgent 0, .create 2], by decide⟩

/-- **C03 (negation, general form).** For every entity, the first child created by an agent copy has
the identifier of the first child of a fresh entity with that identifier. -/
theorem C03_agent_copy_restarts (e : Entity) :
    e.copyAgent.create.1 = (Entity.fresh e.identifier).create.1 ∧
    e.copyEntity.create.1 = e.create.1 := by
  simp [Entity.copyAgent, Entity.copyEntity, Entity.fresh, Entity.create]

/-- **C03 (partial).** Copies are harmless as long as nothing is created by or after the copies:
identifiers created before any number of copy operations stay pairwise distinct after them.
Missing from the full property: creation by a copy, which the code gets wrong (see the
counterexample). -/
theorem C03_copies_without_creation_partial (r : Ident) (ops copies : List Op)
    (honly : ∀ op ∈ ops, ∃ i, op = Op.create i) (hlen : ops.length < 2 ^ 64)
    (hcopies : ∀ op ∈ copies, ∀ i, op ≠ Op.create i) :
    ((World.init r).run (ops ++ copies)).issued.Nodup := by
  have h := C02_unique_identifiers r ops honly hlen
  have : ∀ (copies : List Op) (w : World), (∀ op ∈ copies, ∀ i, op ≠ Op.create i) →
      (w.run copies).issued = w.issued := by
    intro copies
    induction copies with
    | nil => intro w _; rfl
    | cons op ops ih =>
      intro w hc
      have := ih (w.step op) (fun o ho => hc o (by simp [ho]))
      simp only [World.run, List.foldl_cons] at this ⊢
      rw [this]
      cases op with
      | create i => exact absurd rfl (hc (.create i) (by simp) i)
      | copyEntity i => simp only [World.step]; split <;> rfl
      | copyAgent i => simp only [World.step]; split <;> rfl
  have e : (World.init r).run (ops ++ copies) = ((World.init r).run ops).run copies := by
    simp [World.run]
  rw [e, this _ _ hcopies]
  exact h

/-- **C04.** The printed form determines the identity, whatever the (possibly different) widths. -/
theorem C04_render_injective (v w : Nat) (a b : Ident) (h : render v a = render w b) : a = b := by
  cases a with
  | nil => cases b with
    | nil => rfl
    | cons y ys => simp [render] at h
  | cons x xs => cases b with
    | nil => simp [render] at h
    | cons y ys =>
      simp only [render, List.cons.injEq, true_and, List.append_assoc] at h
      have := split_unique _ _ _ _ (renderDigit_isDigit v x) (renderDigit_isDigit w y)
        (rest_head v xs) (rest_head w ys) h
      have hx : x = y := by rw [← renderDigit_value v x, ← renderDigit_value w y, this.1]
      rw [hx, renderRest_inj v w xs ys this.2]

example : String.ofList (render 0 [1, 0, 23]) = "\"1-0-23\"" := by decide
example : String.ofList (render 3 [1, 23]) = "\"001-023\"" := by decide

end Esl.Identity
