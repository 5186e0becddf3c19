import Verif.Model.Base

/-! Caching of the scipy wrapper and pickling of operators: matrix.py 19-37 and 76-82, with object identity. -/

namespace Verif

/-- A python value stored in an operator's `__dict__`: `None`, any other data (compared by value), or a scipy
`LinearOperator` (identity `wid`) whose methods are the bound methods of the operator object `owner`. -/
inductive PVal (δ : Type*) where
  | none
  | data (d : δ)
  | wrapper (wid owner : ℕ)

/-- an object's `__dict__` -/
abbrev PDict (δ : Type*) := String → Option (PVal δ)

/-- Memory: live operator objects (by index) and the next fresh wrapper identity. -/
structure PMem (δ : Type*) where
  objs : List (PDict δ)
  nextW : ℕ

variable {δ : Type*}

/-- `Matrix.__init__`, matrix.py 19-24, followed by a subclass constructor that stores `attrs`: a new object whose
`_op` is `None`. -/
def newObj (attrs : PDict δ) (m : PMem δ) : PMem δ :=
  { m with objs := m.objs ++ [fun k => if k = "_op" then some .none else attrs k] }

/-- `as_linear_operator`, matrix.py 26-37: creates and stores the wrapper when `_op` is `None`; returns `_op`. -/
def asLinearOperator (o : ℕ) (m : PMem δ) : Except PyErr (PMem δ × PVal δ) :=
  match m.objs[o]? with
  | none => .error .indexError
  | some d =>
    match d "_op" with
    | none => .error .attributeError
    | some .none =>
      let w : PVal δ := .wrapper m.nextW o
      .ok (⟨m.objs.set o fun k => if k = "_op" then some w else d k, m.nextW + 1⟩, w)
    | some v => .ok (m, v)

/-- `__getstate__`, matrix.py 76-79: a copy of the dict with `_op` set to `None`. -/
def getState (d : PDict δ) : PDict δ := fun k => if k = "_op" then some .none else d k

/-- `__setstate__`, matrix.py 81-82: `self.__dict__.update(state)`. -/
def setState (d state : PDict δ) : PDict δ := fun k => match state k with | some v => some v | none => d k

/-- `pickle.loads(pickle.dumps(obj))`: `__getstate__`, then a bare object (`__new__`, empty dict) and `__setstate__`.
Attribute values are copied by value; wrappers cannot be pickled (TypeError), which is why `_op` is dropped. -/
def pickleRoundTrip (o : ℕ) (m : PMem δ) : Except PyErr (PMem δ) :=
  match m.objs[o]? with
  | none => .error .indexError
  | some d => .ok { m with objs := m.objs ++ [setState (fun _ => none) (getState d)] }

/-- one call of the user's program -/
inductive PCall where
  | asLinOp (o : ℕ)
  | pickle (o : ℕ)

/-- a history of calls; the wrapper returned by each `as_linear_operator` call is logged with its object -/
def runPickle : List PCall → PMem δ → Except PyErr (PMem δ × List (ℕ × PVal δ))
  | [], m => .ok (m, [])
  | .asLinOp o :: cs, m => do
    let (m, v) ← asLinearOperator o m
    let (m, log) ← runPickle cs m
    .ok (m, (o, v) :: log)
  | .pickle o :: cs, m => do
    let m ← pickleRoundTrip o m
    runPickle cs m

end Verif
