import Verif.Model.Population
/-! # Specification for C149: who acts, is created, is deleted, and sends -/
namespace Esl.Population
open Esl.Comm Esl.Sched
variable {σ : Type}

/-- The agents that act in a round. -/
def Spec.acts (r : Record σ) : List Nat := r.jobs.map (·.1.agent)

/-- The agents that changes create. -/
def Spec.creations (cs : List (Change σ)) : List Nat := cs.filterMap fun c => match c with | .create i _ => some i | .delete _ => none

/-- The agents that changes delete. -/
def Spec.deletions (cs : List (Change σ)) : List Nat := cs.filterMap fun c => match c with | .create _ _ => none | .delete i => some i

/-- The agents that are created in a round. -/
def Spec.created (r : Record σ) : List Nat := r.jobs.flatMap fun j => Spec.creations j.2

/-- The agents that are deleted in a round. -/
def Spec.deleted (r : Record σ) : List Nat := r.jobs.flatMap fun j => Spec.deletions j.2

/-- The messages that are sent in a round. -/
def Spec.sent (r : Record σ) : List Msg := r.jobs.flatMap (·.1.sent)

/-- A start of a simulation: agents with different identifiers, nothing in the outboxes, and no history. -/
structure Spec.Start (w : World σ) : Prop where
  ids : (w.agents.map (·.id)).Nodup
  outboxes : ∀ a ∈ w.agents, a.outbox = []
  history : w.history = []

/-- An identifier that has never been used: neither at the start, nor for an agent that was created in the given rounds. -/
def Spec.New (w : World σ) (rs : List (Record σ)) (i : Nat) : Prop := i ∉ w.agents.map (·.id) ∧ findWake w.wake i = none ∧ ∀ r ∈ rs, i ∉ Spec.created r

/-- The actions of some rounds, in their order. -/
def Spec.log (rs : List (Record σ)) : List Event := rs.flatMap fun r => r.jobs.map (·.1)

end Esl.Population
