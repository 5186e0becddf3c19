import Verif.Model.Base

/-! `runlmc/util/numpy_convenience.py` -/

namespace Verif

/-- running sums continuing from `s` -/
def accumulateFrom {α : Type*} [Add α] (s : α) : List α → List α
  | [] => []
  | b :: l => (s + b) :: accumulateFrom (s + b) l

/-- `np.add.accumulate` / `itertools.accumulate` -/
def accumulate {α : Type*} [Add α] : List α → List α
  | [] => []
  | a :: l => a :: accumulateFrom a l

/-- `np.roll(l, 1)` -/
def roll1 {α : Type*} (l : List α) : List α :=
  match l.getLast? with
  | none => []
  | some a => a :: l.dropLast

/-- `begin_end_indices`, numpy_convenience.py 97-101. `begins[0] = 0` on an empty array is an IndexError. -/
def beginEndIndices (lens : List ℕ) : Except PyErr (List ℕ × List ℕ) :=
  let ends := accumulate lens
  let begins := roll1 ends
  match begins with
  | [] => .error .indexError
  | _ :: t => .ok (0 :: t, ends)

/-- `np.split(a, cuts)` from position `start`: segments `a[start:c0], a[c0:c1], ..., a[ck:]` -/
def npSplit {α : Type*} (a : List α) (start : ℕ) : List ℕ → List (List α)
  | [] => [a.drop start]
  | c :: cs => slice a start c :: npSplit a c cs

/-- `tesselate`, numpy_convenience.py 31-49, for an array whose axis-0 slices are the list elements.
`np.split(a, ends[:-1])` takes the consecutive segments between the cut points. -/
def tesselate {α : Type*} (a : List α) (lens : List ℕ) : Except PyErr (List (List α)) :=
  let ends := accumulate lens
  match ends.getLast? with
  | none => .error .valueError
  | some e =>
    if a.length ≠ e then .error .valueError
    else .ok (npSplit a 0 ends.dropLast)

/-- number of `range(0, len, n)` steps: ceil(len / n) -/
def nchunks (len n : ℕ) : ℕ := (len + n - 1) / n

/-- `list(chunks(l, n))` for `n ≥ 1`, numpy_convenience.py 104-108. -/
def chunksL {α : Type*} (l : List α) (n : ℕ) : List (List α) :=
  (List.range (nchunks l.length n)).map fun k => slice l (k * n) (k * n + n)

/-- `chunks`, numpy_convenience.py 104-108 (`range` with step 0 raises ValueError). -/
def chunks {α : Type*} (l : List α) (n : ℕ) : Except PyErr (List (List α)) :=
  if n = 0 then .error .valueError else .ok (chunksL l n)

/-- `map_entries`, numpy_convenience.py 14-28. (`np.nditer` of a contiguous array runs in C order;
`dtype` truncation by `np.fromiter` is not modelled: entries stay in the same type.) -/
def mapEntries {α : Type*} (f : α → α) (a : NDArr α) : NDArr α :=
  if a.data.length = 0 then a
  else ⟨a.shape, a.data.map f⟩

/-- numpy `np.diff` -/
def npDiff (xs : List ℝ) : List ℝ := List.zipWith (fun a b => b - a) xs xs.tail

open Classical in
/-- `np.searchsorted(xs, x, 'left')` by its numpy contract on an ascending array:
the number of entries before the insertion point, i.e. of leading entries `< x`. -/
noncomputable def searchLeft (xs : List ℝ) (x : ℝ) : ℕ := (xs.takeWhile fun a => decide (a < x)).length

open Classical in
/-- `np.searchsorted(xs, x, 'right')`: the number of leading entries `≤ x`. -/
noncomputable def searchRight (xs : List ℝ) (x : ℝ) : ℕ := (xs.takeWhile fun a => decide (a ≤ x)).length

open Classical in
/-- `search_descending`, numpy_convenience.py 55-69. -/
noncomputable def searchDescending (x : ℝ) (xs : List ℝ) (inclusive : Bool) : Except PyErr ℕ :=
  if ∃ d ∈ npDiff xs, d > 0 then .error .valueError
  else
    let idx := if inclusive then searchLeft xs.reverse x else searchRight xs.reverse x
    .ok (xs.length - idx)

/-- `symm_2d_list_map`, numpy_convenience.py 87-94: the double loop writing `out[i,j]` and `out[j,i]`.
`arr[i, j]` is an accessor; `out` starts as `np.empty`. -/
def symm2dListMap {α β : Type*} (f : α → β) (arr : ℕ → ℕ → α) (D : ℕ) (empty : ℕ → ℕ → β) : ℕ → ℕ → β :=
  (List.range D).foldl (fun out i =>
    (List.range' i (D - i)).foldl (fun out j =>
      let v := f (arr i j)
      let out := fun a b => if a = i ∧ b = j then v else out a b
      let out := fun a b => if a = j ∧ b = i then out i j else out a b
      out) out) empty

/-- `cartesian_product`, numpy_convenience.py 111-118: an array of shape `lens + [narr]` whose slice
`[..., i]` is `arrays[i]` broadcast along axis `i` (`np.ix_`), reshaped to `(-1, narr)`.
The result is the list of its rows. -/
def cartesianProduct {α : Type*} [Zero α] (arrays : List (List α)) : List (List α) :=
  (indices (arrays.map List.length)).map fun idx =>
    vmk arrays.length fun i => (arrays.getD i []).getD (idx.getD i 0) 0

end Verif
