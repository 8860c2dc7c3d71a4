import Verif.Model.Basic
/-!
Objects shared between `std::shared_ptr` and `boost::shared_ptr`: `to_std` and `to_boost` (`esl/python_module_esl.cpp:64-92`) and `to_std_ptr` and `to_boost_ptr`
(`esl/computation/distributed/mpi_environment.cpp:40-59`), for all programs that copy, convert and drop such pointers.

The pointers themselves are modelled by their control blocks, as both libraries implement them: a block counts the shared pointers and the weak pointers to it; when the last shared pointer goes its deleter is
called, and when the last weak pointer is gone too the block, with the deleter in it, is destroyed. Operations are atomic. Pointers that `boost::python` creates when it converts Python objects are not modelled.
-/
namespace Esl.Sharing

/-- What the deleter of a control block does. -/
inductive Kind where
  /-- an ordinary shared pointer: delete the object -/
  | root
  /-- python_module_esl.cpp:84-92 `to_boost`, mpi_environment.cpp:46-59 `to_boost_ptr` and `to_std_ptr`: the deleter holds a pointer with control block `parent` and resets it when it is called -/
  | resetting (parent : Nat)
  /-- python_module_esl.cpp:68-82 `do_release` and `to_std`: the deleter holds a pointer with control block `parent` and does nothing when it is called -/
  | keeping (parent : Nat)
deriving DecidableEq, Repr

/-- A control block: the deleter, the number of shared pointers and the number of weak pointers. -/
structure Block where
  kind : Kind
  strong : Nat
  weak : Nat
deriving DecidableEq, Repr

/-- All control blocks, numbered in the order of their creation; the shared and weak pointer variables of the program, by the control block they use; and the objects deleted so far. An object is named by
the control block that it was created with. -/
structure Heap where
  blocks : List Block
  held : List Nat
  watched : List Nat
  deleted : List Nat
deriving DecidableEq, Repr

/-- The program starts without objects. -/
def Heap.empty : Heap := ⟨[], [], [], []⟩

/-- One shared pointer less with control block `b`. When it was the last the deleter is called: it deletes the object, or resets the pointer that it holds, or does nothing. If there are no weak pointers either, the
block is destroyed with the deleter, and the pointer that the deleter still holds with it. A number of shared pointers below zero would be undefined behaviour (a second deletion), and so is a block that does not exist. -/
def release : (fuel : Nat) → Heap → Nat → Outcome Heap
  | 0, _, _ => .ub
  | fuel + 1, h, b =>
    match h.blocks[b]? with
    | none => .ub
    | some k =>
      if k.strong = 0 then .ub
      else
        let h' := { h with blocks := h.blocks.set b { k with strong := k.strong - 1 } }
        if k.strong = 1 then
          match k.kind with
          | .root => .ok { h' with deleted := h.deleted ++ [b] }
          | .resetting p => release fuel h' p
          | .keeping p => if k.weak = 0 then release fuel h' p else .ok h'
        else .ok h'

/-- One weak pointer less with control block `b`: if there are no shared pointers either, the block is destroyed with its deleter. -/
def releaseWeak (h : Heap) (b : Nat) : Outcome Heap :=
  match h.blocks[b]? with
  | none => .ub
  | some k =>
    if k.weak = 0 then .ub
    else
      let h' := { h with blocks := h.blocks.set b { k with weak := k.weak - 1 } }
      match k.kind with
      | .keeping p => if k.weak = 1 ∧ k.strong = 0 then release h.blocks.length h' p else .ok h'
      | _ => .ok h'

/-- One shared pointer more. -/
def acquire (h : Heap) (b : Nat) : Outcome Heap :=
  match h.blocks[b]? with
  | none => .ub
  | some k => .ok { h with blocks := h.blocks.set b { k with strong := k.strong + 1 } }

/-- What a program does with pointers; `b` is the control block of a variable. -/
inductive Op where
  /-- `std::make_shared` and `boost::make_shared` -/
  | create
  /-- copy a shared pointer -/
  | copy (b : Nat)
  /-- reset or destroy a shared pointer variable -/
  | drop (b : Nat)
  /-- python_module_esl.cpp:75-82 `to_std` -/
  | toStd (b : Nat)
  /-- python_module_esl.cpp:85-92 `to_boost`, mpi_environment.cpp:46-59 `to_boost_ptr` and `to_std_ptr` -/
  | toBoost (b : Nat)
  /-- construct a weak pointer -/
  | watch (b : Nat)
  /-- destroy a weak pointer -/
  | unwatch (b : Nat)
  /-- `weak_ptr::lock` -/
  | lock (b : Nat)
deriving DecidableEq, Repr

/-- A conversion: the deleter gets a copy of the pointer, and the result is the only pointer of a new control block. -/
def bridge (h : Heap) (b : Nat) (kind : Kind) : Outcome Heap :=
  acquire h b >>= fun h' => .ok { h' with blocks := h'.blocks ++ [⟨kind, 1, 0⟩], held := h.blocks.length :: h.held }

/-- One operation. Without a variable with the control block `b` there is no operation. -/
def step (h : Heap) : Op → Outcome Heap
  | .create => .ok { h with blocks := h.blocks ++ [⟨.root, 1, 0⟩], held := h.blocks.length :: h.held }
  | .copy b => if b ∈ h.held then acquire h b >>= fun h' => .ok { h' with held := b :: h.held } else .ok h
  | .drop b => if b ∈ h.held then release (h.blocks.length + 1) { h with held := h.held.erase b } b else .ok h
  | .toStd b => if b ∈ h.held then bridge h b (.keeping b) else .ok h
  | .toBoost b => if b ∈ h.held then bridge h b (.resetting b) else .ok h
  | .watch b =>
    if b ∈ h.held then
      match h.blocks[b]? with
      | none => .ub
      | some k => .ok { h with blocks := h.blocks.set b { k with weak := k.weak + 1 }, watched := b :: h.watched }
    else .ok h
  | .unwatch b => if b ∈ h.watched then releaseWeak { h with watched := h.watched.erase b } b else .ok h
  | .lock b =>
    if b ∈ h.watched then
      match h.blocks[b]? with
      | none => .ub
      | some k => if k.strong = 0 then .ok h else acquire h b >>= fun h' => .ok { h' with held := b :: h.held }
    else .ok h

/-- A program. -/
def run : Heap → List Op → Outcome Heap
  | h, [] => .ok h
  | h, o :: os => step h o >>= fun h' => run h' os

end Esl.Sharing
