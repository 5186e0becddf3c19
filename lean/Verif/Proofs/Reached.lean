import Verif.Proofs.OptimizerValid
import Verif.Props.Observations
import Verif.Props.Pointwise

/-! The models that documented programs reach. -/

namespace Verif

/-- what the record of a model says about its arguments and parameters -/
def Recorded (s : Option (LLGPArgs × Option FK)) : Prop :=
  ∀ a o, s = some (a, o) → ∃ P fk m₀, a.Documented P fk ∧ llgpInit a = .ok m₀ ∧ (o.getD m₀.fk).activeDims = m₀.fk.activeDims

theorem recorded_step {sv : Solvers} {op : Op} {ops : List Op} {fks : List FK} {w : World} {i n : ℕ} {s : Option (LLGPArgs × Option FK)} (h : Healthy sv fks w)
    (hst : Settled sv i n s w) (hv : ValidFrom fks (op :: ops)) (hr : Recorded s) (x : Except PyErr Answer) : Recorded (setUp i s [(op, x)]) := by
  cases op with
  | new a e =>
    obtain ⟨P, fk, fk', hP, hd, -⟩ := hv
    have key : Recorded (some (a, none)) := fun a' o' h' => by
      cases h'
      obtain ⟨m, fk'', h1, -⟩ := llgpInit_documented hd hP
      exact ⟨P, fk, m, hd, h1, rfl⟩
    unfold setUp
    cases x with
    | error err => exact hr
    | ok ans =>
      cases ans with
      | model j =>
        simp only
        split
        · exact key
        · exact hr
      | _ => exact hr
  | set j fk' e =>
    obtain ⟨fk, h1, h2, -⟩ := hv
    show Recorded (if j = i then s.map fun af => (af.1, some fk') else s)
    split
    · rename_i hj
      subst hj
      intro a o ho
      cases hs : s with
      | none => rw [hs] at ho; cases ho
      | some af =>
        obtain ⟨a', o'⟩ := af
        rw [hs] at ho
        cases ho
        obtain ⟨P, fk0, m₀, d1, d2, d3⟩ := hr _ o' hs
        refine ⟨P, fk0, m₀, d1, d2, ?_⟩
        cases hw : w.heap j with
        | none => rw [hst.absent hw] at hs; cases hs
        | some m =>
          obtain ⟨a₁, o₁, m₁, p1, p2, p3, -⟩ := hst.present m hw
          rw [hs] at p1
          cases p1
          rw [d2] at p2
          cases p2
          have := h.listed hw
          rw [h1] at this
          cases this
          show fk'.activeDims = _
          rw [h2.groups, p3, d3]
    · exact hr
  | optimize j => exact hr
  | ask j q e => exact hr

theorem recorded_program {sv : Solvers} (hs : sv.Fit) : ∀ (ops : List Op) {fks : List FK} {w : World} {i n : ℕ} {s : Option (LLGPArgs × Option FK)}, Healthy sv fks w →
    Settled sv i n s w → ValidFrom fks ops → Recorded s → Recorded (setUp i s (ops.zip (history true sv ops w).1))
  | [], _, _, _, _, _, _, _, _, hr => hr
  | op :: ops, fks, w, i, n, s, h, hst, hv, hr => by
    obtain ⟨fks', hv', -, hw, hch, hh, -⟩ := healthy_step hs op ops fks w h hv
    have h1 := settled_step hst op hw hch
    have e : (op :: ops).zip (history true sv (op :: ops) w).1 = [(op, (execOp true sv op w).1)] ++ ops.zip (history true sv ops (execOp true sv op w).2).1 := rfl
    rw [e, setUp_append]
    exact recorded_program hs ops hh h1 hv' (recorded_step h hst hv hr _)

end Verif
