import Verif.Model.Python
/-!
Callbacks made from Python functions: `make_callback_handle` and `callback_t` of `esl/python_module_esl.cpp` and `callback` of `esl/interaction/__init__.py`. Variables are modelled by when they exist: each has a number of its own, and it is undefined behaviour to
use one that no longer exists.
-/
namespace Esl.Callbacks

/-- The variables of type `boost::python::object` so far: what they hold, or that they exist no more. -/
abbrev Memory (φ : Type) := List (Option φ)

/-- A new variable. -/
def create {φ : Type} (m : Memory φ) (f : φ) : Memory φ := m ++ [some f]

/-- The end of a variable. -/
def destroy {φ : Type} (m : Memory φ) (i : Nat) : Memory φ := m.set i none

/-- What happens to variables. -/
inductive Action (φ : Type) where
  | create (f : φ)
  | destroy (i : Nat)

/-- Several things, one after the other. -/
def run {φ : Type} (m : Memory φ) : List (Action φ) → Memory φ
  | [] => m
  | .create f :: l => run (create m f) l
  | .destroy i :: l => run (destroy m i) l

/-- python_module_esl.cpp:1009-1024 `make_callback_handle`: the parameter `f`, a variable of the function, is captured by reference (`[&]`, 1016). The handle is the number of the variable, which exists until the function returns. -/
def makeHandle {φ : Type} (m : Memory φ) (f : φ) : Memory φ × Nat :=
  let i := m.length
  let m := create m f
  (destroy m i, i)

/-- python_module_esl.cpp:1016-1023: the function that the handle stands for calls `f`, and converts the result to a time. `apply` is what a Python function does with the message. -/
def callHandle {φ μ : Type} (apply : φ → μ → Python.Returned) (m : Memory φ) (i : Nat) (message : μ) : Outcome Nat :=
  match m[i]? with
  | some (some f) =>
    match apply f message with
    | .time t => if t < 2 ^ 64 then .ok t else .throws
    | _ => .throws
  | _ => .ub

/-- communicator.hpp:76-99 `callback_t`. -/
structure Callback where
  function : Option Nat
  description : List Char
  message : List Char
  file : List Char
  line : Nat
deriving DecidableEq, Repr

/-- An argument of the constructor. -/
inductive Argument where
  | handle (i : Nat)
  | text (s : List Char)
  | number (n : Nat)
deriving DecidableEq, Repr

/-- python_module_esl.cpp:2640 `class_<communicator::callback_t>("callback_t")`: `boost::python` gives the class a constructor without arguments, and no other is defined; a call with arguments raises an exception. -/
def callbackT (a : List Argument) : Outcome Callback := if a = [] then .ok ⟨none, [], [], [], 0⟩ else .throws

/-- interaction/__init__.py:7-20 `callback`. -/
def callback {φ : Type} (m : Memory φ) (f : φ) (description message file : List Char) (line : Nat) : Memory φ × Outcome Callback :=
  let (m, i) := makeHandle m f
  (m, callbackT [.handle i, .text description, .text message, .text file, .number line])

end Esl.Callbacks
