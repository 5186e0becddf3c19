import Verif.Model.NumpyUtil

/-! `runlmc/util/inline_pool.py`, `runlmc/util/docs.py`, and the memory-order aspect of
`map_entries` in `runlmc/util/numpy_convenience.py`. -/

namespace Verif

/-! ### map_entries on arrays with an arbitrary memory layout -/

/-- An ndarray with its memory layout: `order` lists the flat C positions in the order in which they lie in
memory (`np.nditer` with its default `order='K'` visits them that way). A C-contiguous array has
`order = range size`; the transpose of one does not. -/
structure LaidOut (α : Type*) where
  arr : NDArr α
  order : List ℕ

/-- `map_entries`, numpy_convenience.py 14-28: `np.fromiter(map(f, np.nditer(a))).reshape(shape)`. The iterator
yields entries in memory order; `reshape` fills in C order. (`dtype` truncation is not modelled.) -/
def mapEntriesLaid {α : Type*} [Zero α] (f : α → α) (a : LaidOut α) : NDArr α :=
  if a.arr.data.length = 0 then a.arr
  else ⟨a.arr.shape, a.order.map fun k => f (a.arr.data.getD k 0)⟩

/-! ### InlinePool -/

/-- `list(itertools.starmap(f, chunk))` in a worker: the first exception in the chunk, or the results. -/
def runChunk {α β : Type*} (f : α → Except PyErr β) : List α → Except PyErr (List β)
  | [] => .ok []
  | x :: xs => do let y ← f x; let ys ← runChunk f xs; return y :: ys

/-- State of `multiprocessing.pool.MapResult`: the slots, or the first exception that arrived. -/
abbrev MapState (β : Type*) := Except PyErr (List (Option β))

/-- `MapResult._set(i, (success, result))` (CPython): a successful chunk fills its slice; the first failed
chunk replaces the value; later results are dropped. -/
def mapSet {β : Type*} (size : ℕ) (s : MapState β) (i : ℕ) (r : Except PyErr (List β)) : MapState β :=
  match s, r with
  | .error e, _ => .error e
  | .ok _, .error e => .error e
  | .ok slots, .ok ys => .ok (setSlice slots (i * size) (ys.map some))

/-- `pool.starmap(f, ls)` with chunk size `size` when the workers finish the chunks in the order `schedule`
(any order): all chunks are awaited, then the slots are returned or the stored exception is raised. -/
def poolStarmap {α β : Type*} (f : α → Except PyErr β) (ls : List α) (size : ℕ) (schedule : List ℕ) : MapState β :=
  let tasks := chunksL ls size
  schedule.foldl (fun s i => mapSet size s i (runChunk f (tasks.getD i []))) (.ok (ls.map fun _ => none))

/-- How the `InlinePool` was made: with `None`, or with a pool (chunk size and completion order are the
pool's business). -/
inductive PoolArg where
  | none
  | pool (size : ℕ) (schedule : List ℕ)

/-- `InlinePool.starmap`, inline_pool.py 16-19. -/
def inlineStarmap {α β : Type*} (p : PoolArg) (f : α → Except PyErr β) (ls : List α) : MapState β :=
  match p with
  | .pool size schedule => poolStarmap f ls size schedule
  | .none => (runChunk f ls).map (List.map some)

/-! ### inherit_doc -/

/-- An attribute of a class. Functions are objects on a heap (their `__doc__` is mutable and shared by every
reference); a property holds its getter and its own `__doc__`; anything else has a truth value and a doc.
The empty string stands for a missing (`None`) or empty docstring, as both are falsy. -/
inductive Attr where
  | func (id : ℕ)
  | prop (fget : ℕ) (doc : String)
  | other (truthy : Bool) (doc : String)
  deriving DecidableEq

/-- The heap of function objects: `__doc__` of each. -/
abbrev DocHeap := ℕ → String

/-- A class: `vars(cls)` in order, and `getattr(parent, name, None)` for each of `cls.__bases__`. -/
structure PyClass where
  vars : List (String × Attr)
  bases : List (String → Option Attr)

/-- `bool(a)` -/
def Attr.truthy : Attr → Bool
  | .other t _ => t
  | _ => true

/-- `getattr(a, '__doc__', None)` (for a property: the property object's doc) -/
def Attr.docOf (h : DocHeap) : Attr → String
  | .func id => h id
  | .prop _ d => d
  | .other _ d => d

/-- docs.py 24-28: the `for parent in cls.__bases__` loop of the method branch: the doc that is assigned. -/
def findFuncDoc (h : DocHeap) (name : String) : List (String → Option Attr) → Option String
  | [] => none
  | p :: ps =>
    match p name with
    | some a => if a.truthy ∧ a.docOf h ≠ "" then some (a.docOf h) else findFuncDoc h name ps
    | none => findFuncDoc h name ps

/-- docs.py 30-38: the parent loop of the property branch. `parprop.fget` raises AttributeError when the
parent's attribute is truthy but not a property. -/
def findPropDoc (h : DocHeap) (name : String) : List (String → Option Attr) → Except PyErr (Option String)
  | [] => .ok none
  | p :: ps =>
    match p name with
    | some (.prop g _) => if h g ≠ "" then .ok (some (h g)) else findPropDoc h name ps
    | some a => if a.truthy then .error .attributeError else findPropDoc h name ps
    | none => findPropDoc h name ps

/-- docs.py 22-38: one iteration of the loop over `vars(cls).items()`. -/
def inheritStep (bases : List (String → Option Attr)) (h : DocHeap) (name : String) (a : Attr) :
    Except PyErr (DocHeap × Attr) :=
  match a with
  | .func id =>
    if h id = "" then
      match findFuncDoc h name bases with
      | some d => .ok (Function.update h id d, .func id)
      | none => .ok (h, .func id)
    else .ok (h, .func id)
  | .prop g d =>
    if h g = "" then do
      match ← findPropDoc h name bases with
      | some d' => .ok (h, .prop g d')
      | none => .ok (h, .prop g d)
    else .ok (h, .prop g d)
  | .other t d => .ok (h, .other t d)

/-- the loop of `inherit_doc` -/
def inheritLoop (bases : List (String → Option Attr)) (h : DocHeap) :
    List (String × Attr) → Except PyErr (DocHeap × List (String × Attr))
  | [] => .ok (h, [])
  | (n, a) :: rest => do
    let (h', a') ← inheritStep bases h n a
    let (h'', rest') ← inheritLoop bases h' rest
    .ok (h'', (n, a') :: rest')

/-- `inherit_doc`, docs.py 11-40. -/
def inheritDoc (h : DocHeap) (c : PyClass) : Except PyErr (DocHeap × PyClass) := do
  let (h', vars') ← inheritLoop c.bases h c.vars
  .ok (h', { c with vars := vars' })

end Verif
