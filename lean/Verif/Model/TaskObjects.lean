import Verif.Model.TaskGraph

/-!
# Collecting tasks in `run_blockwise`, with lists as objects

`Model/TaskGraph` represents tasks as trees and lists as values.  Here tasks are objects, which may be shared and which may
require each other in a circle (`upstream_tasks` is a public attribute, `task.py` 160-162), and lists are objects with
addresses, so that it can be said which of them `run_blockwise` changes. -/

namespace Verif

/-- The task objects: their ids, and the addresses of their lists `upstream_tasks` (`task.py` 144, 160-162). -/
structure TaskObjs (O : Type) where
  tid : O → Nat
  ups : O → Nat

/-- The argument `tasks` of `run_blockwise`: a list (its address) or a tuple. -/
inductive PySeq (O : Type) where
  | list (a : Nat)
  | tuple (xs : List O)

/-- The variables of the loop of `run_blockwise`, `convenience.py` 27-36.  `heap` are the lists that exist (those with
addresses below `next`). -/
structure Coll (O : Type) where
  heap : Nat → List O
  next : Nat
  tasks : PySeq O
  seen : List Nat
  all : List O

namespace Coll

variable {O : Type}

/-- The elements of `tasks`. -/
def elems (s : Coll O) : List O :=
  match s.tasks with
  | .list a => s.heap a
  | .tuple xs => xs

/-- `tasks = tasks[1:]`, `convenience.py` 30; `rest` are the elements: a new list, or a new tuple. -/
def slice (s : Coll O) (rest : List O) : Coll O :=
  match s.tasks with
  | .list _ => { s with heap := fun a => if a = s.next then rest else s.heap a, next := s.next + 1, tasks := .list s.next }
  | .tuple _ => { s with tasks := .tuple rest }

/-- `convenience.py` 31-33. -/
def note (ob : TaskObjs O) (s : Coll O) (t : O) : Coll O :=
  if ob.tid t ∉ s.seen then { s with seen := ob.tid t :: s.seen, all := s.all ++ [t] } else s

/-- `tasks.extend(l)`, `convenience.py` 34, where `l` is the list at the address `b`.  Tuples have no `extend`. -/
def extend (s : Coll O) (b : Nat) : Except PyErr (Coll O) :=
  match s.tasks with
  | .list a => .ok { s with heap := fun c => if c = a then s.heap a ++ s.heap b else s.heap c }
  | .tuple _ => .error .attributeError

/-- One pass of the loop, `convenience.py` 29-34; `none` if the loop ends. -/
def pass (ob : TaskObjs O) (s : Coll O) : Except PyErr (Option (Coll O)) :=
  match s.elems with
  | [] => .ok none
  | t :: rest =>
    match ((s.slice rest).note ob t).extend (ob.ups t) with
    | .error e => .error e
    | .ok s' => .ok (some s')

/-- The loop, `convenience.py` 29-34. -/
def loop (ob : TaskObjs O) : Nat → Coll O → Except PyErr (Coll O)
  | 0, _ => .error .outOfFuel
  | fuel + 1, s =>
    match s.pass ob with
    | .error e => .error e
    | .ok none => .ok s
    | .ok (some s') => loop ob fuel s'

/-- Before the loop, `convenience.py` 27-28. -/
def start (heap : Nat → List O) (next : Nat) (tasks : PySeq O) : Coll O := ⟨heap, next, tasks, [], []⟩

end Coll
end Verif
