import Verif.Model.NumpyUtil
import Verif.Proofs.Base

namespace Verif

/-- consecutive half-open intervals of the given lengths starting at `s` -/
def spansFrom (s : ℕ) : List ℕ → List (ℕ × ℕ)
  | [] => []
  | n :: l => (s, s + n) :: spansFrom (s + n) l

theorem accumulateFrom_length {α : Type*} [Add α] (s : α) (l : List α) :
    (accumulateFrom s l).length = l.length := by
  induction l generalizing s with
  | nil => rfl
  | cons a l ih => simp [accumulateFrom, ih]

theorem accumulate_length {α : Type*} [Add α] (l : List α) : (accumulate l).length = l.length := by
  cases l with
  | nil => rfl
  | cons a l => simp [accumulate, accumulateFrom_length]

theorem zip_spans (a s : ℕ) (l : List ℕ) :
    List.zip (a :: (s :: accumulateFrom s l).dropLast) (s :: accumulateFrom s l) =
      (a, s) :: spansFrom s l := by
  induction l generalizing a s with
  | nil => rfl
  | cons b l ih =>
    simp only [accumulateFrom, spansFrom]
    have := ih s (s + b)
    rw [List.dropLast_cons_of_ne_nil (by simp)]
    simp only [List.zip_cons_cons, List.cons.injEq, true_and]
    simpa using this

theorem beginEnd_ok {lens : List ℕ} (h : lens ≠ []) :
    ∃ b e, beginEndIndices lens = .ok (b, e) ∧ b.zip e = spansFrom 0 lens ∧
      b.length = lens.length ∧ e.length = lens.length := by
  cases lens with
  | nil => exact absurd rfl h
  | cons n l =>
    have hlast : ∃ a, (n :: accumulateFrom n l).getLast? = some a := by
      rw [List.getLast?_eq_some_getLast (by simp)]; exact ⟨_, rfl⟩
    obtain ⟨a, ha⟩ := hlast
    refine ⟨0 :: (n :: accumulateFrom n l).dropLast, n :: accumulateFrom n l, ?_, ?_, ?_, ?_⟩
    · simp [beginEndIndices, accumulate, roll1, ha]
    · rw [zip_spans]; simp [spansFrom]
    · simp [accumulateFrom_length]
    · simp [accumulateFrom_length]

theorem beginEnd_nil : beginEndIndices [] = .error .indexError := rfl

theorem spansFrom_length (s : ℕ) (l : List ℕ) : (spansFrom s l).length = l.length := by
  induction l generalizing s with
  | nil => rfl
  | cons a l ih => simp [spansFrom, ih]

end Verif
