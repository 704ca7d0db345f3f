import Verif.Py.Basic

/-!
# Model of `daisy/freezable.py` and of the attributes of `daisy/block.py`

An object has a dict of instance attributes; its class has attributes as well.  Not modelled:
properties, slots and `__getattr__` (neither `Freezable` nor `Block` has any), deletion of
attributes. -/

namespace Verif

/-- What is needed of Python values: `True`, `False` and `bool(v)`. -/
structure PyVals (V : Type) where
  true : V
  false : V
  truthy : V → Bool
  truthy_true : truthy true = Bool.true
  truthy_false : truthy false = Bool.false

/-- An instance of a subclass of `Freezable`: the attributes of the class and of the instance. -/
structure PyObj (V : Type) where
  cls : String → Option V
  inst : String → Option V

namespace PyObj

variable {V : Type}

/-- The name `self.__isfrozen` has outside of the class. -/
def flag : String := "_Freezable__isfrozen"

/-- Attribute lookup: the instance first, then the class. -/
def get (o : PyObj V) (k : String) : Option V :=
  match o.inst k with
  | some v => some v
  | none => o.cls k

/-- `hasattr(o, k)`. -/
def has (o : PyObj V) (k : String) : Bool := (o.get k).isSome

/-- `object.__setattr__(o, k, v)`. -/
def objSet (o : PyObj V) (k : String) (v : V) : PyObj V :=
  { o with inst := fun k' => if k' = k then some v else o.inst k' }

/-- `Freezable.__setattr__`, `freezable.py` 4-7.  The class attribute `__isfrozen` exists
(`freezable.py` 2), so reading it does not fail. -/
def set (P : PyVals V) (o : PyObj V) (k : String) (v : V) : Except PyErr (PyObj V) :=
  match o.get flag with
  | none => .error .attributeError
  | some f => if P.truthy f && !o.has k then .error .typeError else .ok (o.objSet k v)

/-- `freeze`, `freezable.py` 9-10. -/
def freeze (P : PyVals V) (o : PyObj V) : Except PyErr (PyObj V) := o.set P flag P.true

/-- `thaw`, `freezable.py` 12-13. -/
def thaw (P : PyVals V) (o : PyObj V) : Except PyErr (PyObj V) := o.set P flag P.false

/-- A sequence of assignments `o.k = v`; exceptions are caught by the caller, who goes on. -/
def assign (P : PyVals V) : PyObj V → List (String × V) → PyObj V
  | o, [] => o
  | o, (k, v) :: r =>
    match o.set P k v with
    | .error _ => assign P o r
    | .ok o' => assign P o' r

/-- A new object of class `Block`, before `__init__` (`block.py` 15, `freezable.py` 2).
`methods` are the other attributes of the class. -/
def blockNew (P : PyVals V) (methods : String → Option V) : PyObj V :=
  ⟨fun k => if k = flag then some P.false else methods k, fun _ => none⟩

/-- The values `Block.__init__` stores, `block.py` 71-81. -/
structure BlockVals (V : Type) where
  readRoi : V
  writeRoi : V
  taskId : V
  blockId : V
  created : V
  pyNone : V

/-- `Block.__init__`, `block.py` 70-82. -/
def blockInit (P : PyVals V) (v : BlockVals V) (o : PyObj V) : Except PyErr (PyObj V) :=
  match o.set P "read_roi" v.readRoi with
  | .error e => .error e
  | .ok o =>
    match o.set P "write_roi" v.writeRoi with
    | .error e => .error e
    | .ok o =>
      match o.set P "requested_write_roi" v.writeRoi with
      | .error e => .error e
      | .ok o =>
        match o.set P "task_id" v.taskId with
        | .error e => .error e
        | .ok o =>
          match o.set P "block_id" v.blockId with
          | .error e => .error e
          | .ok o =>
            match o.set P "status" v.created with
            | .error e => .error e
            | .ok o =>
              match o.set P "started_processing" v.pyNone with
              | .error e => .error e
              | .ok o =>
                match o.set P "stopped_processing" v.pyNone with
                | .error e => .error e
                | .ok o => o.freeze P

end PyObj
end Verif
