import Verif.Model.Base
import Mathlib.Data.Nat.Digits.Defs
import Mathlib.Data.Real.Basic

/-! The rest of `/repo/runlmc/util/testing_utils.py`: `RandomTest`, `check_np_lists`, `vectorize_inputs` and `error_context`. Simplifications: the states of python's and
numpy's generators after seeding are an arbitrary function of the seed; of the texts that `int` accepts only plain decimal numbers are modelled, others
raise, and numbers above 2^64 are reduced like the smaller ones; floats are real numbers or not numbers (`none`). -/

namespace Verif

/-! ### RandomTest -/

/-- the text of a natural number, `'{}'.format(n)` -/
def decimalText (n : ℕ) : List Char := if n = 0 then ['0'] else (Nat.digits 10 n).reverse.map Nat.digitChar

/-- the number a decimal text stands for. testing_utils.py:53 (`astype` of a text) -/
def decimalValue (s : List Char) : Except PyErr ℕ :=
  if s = [] ∨ ¬ ∀ c ∈ s, c.isDigit then .error .valueError else .ok (s.foldl (fun n c => n * 10 + (c.toNat - 48)) 0)

/-- the seed: `env` is the variable `SEED`, `clock` is `int(time.time() * 37 + os.getpid())`. testing_utils.py:50-53 -/
def randomSeed (env : Option (List Char)) (clock : ℤ) : Except PyErr ℕ :=
  match env with
  | none => .ok (clock % 2 ^ 32).toNat
  | some s => do
    let n ← decimalValue s
    return n % 2 ^ 32

/-- what is printed. testing_utils.py:55 -/
def seedLine (seed : ℕ) : List Char := "Random test using SEED=".toList ++ decimalText seed

/-- One test: `setUp` draws or reads the seed, prints it and seeds both generators (`seedAll`), then the test runs with them. The results are the line printed and
the outcome of the test. testing_utils.py:47-58 -/
def runTest {S A : Type} (seedAll : ℕ → S) (env : Option (List Char)) (clock : ℤ) (test : S → A × S) (s : S) : Except PyErr (List Char × A) × S :=
  match randomSeed env clock with
  | .error e => (.error e, s)
  | .ok seed => (.ok (seedLine seed, (test (seedAll seed)).1), (test (seedAll seed)).2)

/-- a run of tests, each at its own time. -/
def runSuite {S A : Type} (seedAll : ℕ → S) (env : Option (List Char)) : List ((S → A × S) × ℤ) → S → List (Except PyErr (List Char × A))
  | [], _ => []
  | (test, clock) :: l, s => (runTest seedAll env clock test s).1 :: runSuite seedAll env l (runTest seedAll env clock test s).2

/-! ### check_np_lists -/

/-- are two floats close? `assert_allclose` takes two that are not numbers as equal -/
noncomputable def closeFloats (atol rtol : ℝ) : Option ℝ → Option ℝ → Bool
  | none, none => true
  | some x, some y => decide (|x - y| ≤ atol + rtol * |y|)
  | _, _ => false

/-- `np.testing.assert_allclose(actual, desired, atol=atol, rtol=rtol)`: the shapes are equal or one of the arrays is a scalar. testing_utils.py:179-180 -/
noncomputable def assertAllclose (atol rtol : ℝ) (actual desired : NDArr (Option ℝ)) : Except PyErr Unit :=
  if actual.shape = desired.shape then
    if (List.zipWith (closeFloats atol rtol) actual.data desired.data).all id then .ok () else .error .assertionError
  else if desired.shape = [] then
    if (actual.data.map fun x => closeFloats atol rtol x (desired.data.getD 0 none)).all id then .ok () else .error .assertionError
  else if actual.shape = [] then
    if (desired.data.map fun y => closeFloats atol rtol (actual.data.getD 0 none) y).all id then .ok () else .error .assertionError
  else .error .assertionError

/-- the loop of `check_np_lists`. testing_utils.py:178-180 -/
noncomputable def checkPairs (atol rtol : ℝ) : List (NDArr (Option ℝ) × NDArr (Option ℝ)) → Except PyErr Unit
  | [] => .ok ()
  | p :: l => do
    assertAllclose atol rtol p.1 p.2
    checkPairs atol rtol l

/-- `check_np_lists(a, b, atol, rtol)`. testing_utils.py:171-180 -/
noncomputable def checkNpLists (a b : List (NDArr (Option ℝ))) (atol : ℝ := 1e-7) (rtol : ℝ := 1e-7) : Except PyErr Unit :=
  if a.length ≠ b.length then .error .assertionError else checkPairs atol rtol (a.zip b)

/-! ### vectorize_inputs -/

/-- `np.hsplit(args, args.shape[1])`: the columns, as arrays with one column; without columns `0 % 0` raises. testing_utils.py:32 -/
def columnsOf (args : Arr2 ℝ) : Except PyErr (List (Arr2 ℝ)) :=
  if args.cols = 0 then .error .zeroDivisionError else .ok (vmk args.cols fun j => ⟨args.rows, 1, vmk args.rows fun i => args.data.getD (i * args.cols + j) 0⟩)

/-- `vectorize_inputs(f)(args)`; `f` takes its arguments as a list. testing_utils.py:29-32 -/
def vectorizeInputs {A : Type} (f : List (Arr2 ℝ) → Except PyErr A) (args : Arr2 ℝ) : Except PyErr A := do
  let cs ← columnsOf args
  f cs

/-! ### error_context -/

/-- an argument of an exception: a text or something else -/
inductive ExcArg where
  | str (s : List Char)
  | other

/-- an exception: its class and its `args` -/
structure PyExc where
  kind : PyErr
  args : List ExcArg

/-- `with error_context(s): body`. `e.args[0]` of an exception without arguments is an `IndexError`, adding a text to something else a `TypeError`.
testing_utils.py:234-240 -/
def errorContext {A : Type} (s : List Char) (body : Except PyExc A) : Except PyExc A :=
  match body with
  | .ok a => .ok a
  | .error e =>
    if e.kind = .assertionError then
      match e.args with
      | [] => .error ⟨.indexError, [.str "tuple index out of range".toList]⟩
      | .str m :: rest => .error ⟨.assertionError, .str (m ++ '\n' :: s) :: rest⟩
      | .other :: _ => .error ⟨.typeError, [.str "unsupported operand type(s) for +".toList]⟩
    else .error e

/-- contexts one inside the other, the innermost first -/
def errorContexts {A : Type} (ss : List (List Char)) (body : Except PyExc A) : Except PyExc A := ss.foldl (fun b s => errorContext s b) body

end Verif
