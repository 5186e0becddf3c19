import Verif.Model.Pickle
import Verif.Proofs.Matrix

/-! C13: pickling and the cached wrapper. -/

namespace Verif
variable {δ : Type}

/-- every object has an `_op` slot that is `None` or a wrapper of that very object older than `nextW`;
different objects have different wrappers; every other attribute is that of the original -/
structure PInv (attrs : PDict δ) (m : PMem δ) : Prop where
  op : ∀ (o : ℕ) (d : PDict δ), m.objs[o]? = some d → d "_op" = some .none ∨ ∃ w < m.nextW, d "_op" = some (.wrapper w o)
  rest : ∀ (o : ℕ) (d : PDict δ), m.objs[o]? = some d → ∀ k, k ≠ "_op" → d k = attrs k
  inj : ∀ (o o' : ℕ) (d d' : PDict δ) (w : ℕ), m.objs[o]? = some d → m.objs[o']? = some d' → d "_op" = some (.wrapper w o) →
    d' "_op" = some (.wrapper w o') → o = o'

/-- the cached wrapper of object `o`, if any -/
def cached (m : PMem δ) (o : ℕ) : Option (PVal δ) :=
  match m.objs[o]? with
  | some d => match d "_op" with | some (.wrapper w p) => some (.wrapper w p) | _ => none
  | none => none

theorem newObj_inv (attrs : PDict δ) : PInv attrs (newObj attrs ⟨[], 0⟩) := by
  constructor
  · intro o d h
    cases o with
    | zero => simp [newObj] at h; subst h; left; simp
    | succ o => simp [newObj] at h
  · intro o d h k hk
    cases o with
    | zero => simp [newObj] at h; subst h; simp [hk]
    | succ o => simp [newObj] at h
  · intro o o' d d' w h
    cases o with
    | zero => simp [newObj] at h; subst h; simp
    | succ o => simp [newObj] at h

theorem asLin_inv {attrs : PDict δ} {m m' : PMem δ} {o : ℕ} {v : PVal δ} (hi : PInv attrs m)
    (h : asLinearOperator o m = .ok (m', v)) : PInv attrs m' ∧ (∃ w, v = .wrapper w o) ∧ cached m' o = some v ∧
      (∀ p u, cached m p = some u → cached m' p = some u) ∧ m'.objs.length = m.objs.length := by
  unfold asLinearOperator at h
  cases hd : m.objs[o]? with
  | none => rw [hd] at h; cases h
  | some d =>
    rw [hd] at h
    have ho : o < m.objs.length := by
      by_contra hc; rw [List.getElem?_eq_none (by omega)] at hd; cases hd
    rcases hi.op o d hd with hop | ⟨w, hw, hop⟩
    · simp only [hop, Except.ok.injEq, Prod.mk.injEq] at h
      obtain ⟨rfl, rfl⟩ := h
      have hget : ∀ p, (m.objs.set o fun k => if k = "_op" then some (PVal.wrapper m.nextW o) else d k)[p]? =
          if p = o then some (fun k => if k = "_op" then some (PVal.wrapper m.nextW o) else d k) else m.objs[p]? := by
        intro p
        rw [List.getElem?_set]
        by_cases hp : p = o
        · subst hp; simp [ho]
        · rw [if_neg (Ne.symm hp), if_neg hp]
      refine ⟨⟨?_, ?_, ?_⟩, ⟨_, rfl⟩, ?_, ?_, by simp⟩
      · intro p d' hp
        simp only [hget] at hp
        split at hp
        · rename_i hpo
          cases hp; subst hpo
          right; exact ⟨m.nextW, Nat.lt_succ_self _, by simp⟩
        · rcases hi.op p d' hp with h | ⟨w, hw, h⟩
          · exact Or.inl h
          · exact Or.inr ⟨w, Nat.lt_succ_of_lt hw, h⟩
      · intro p d' hp k hk
        simp only [hget] at hp
        split at hp
        · cases hp; simp only [hk, if_false]; exact hi.rest o d hd k hk
        · exact hi.rest p d' hp k hk
      · intro p p' d1 d2 w h1 h2 e1 e2
        simp only [hget] at h1 h2
        split at h1 <;> split at h2
        · omega
        · cases h1
          simp at e1
          rcases hi.op p' d2 h2 with h | ⟨w', hw', h⟩
          · rw [h] at e2; cases e2
          · rw [h] at e2; cases e2; omega
        · cases h2
          simp at e2
          rcases hi.op p d1 h1 with h | ⟨w', hw', h⟩
          · rw [h] at e1; cases e1
          · rw [h] at e1; cases e1; omega
        · exact hi.inj p p' d1 d2 w h1 h2 e1 e2
      · unfold cached
        simp only [hget, if_true]
      · intro p u hp
        unfold cached at hp ⊢
        simp only [hget]
        by_cases hpo : p = o
        · subst hpo
          rw [hd] at hp; simp [hop] at hp
        · rw [if_neg hpo]; exact hp
    · simp only [hop, Except.ok.injEq, Prod.mk.injEq] at h
      obtain ⟨rfl, rfl⟩ := h
      exact ⟨hi, ⟨_, rfl⟩, by simp [cached, hd, hop], fun _ _ h => h, rfl⟩

theorem pickle_inv {attrs : PDict δ} {m m' : PMem δ} {o : ℕ} (hi : PInv attrs m) (h : pickleRoundTrip o m = .ok m') :
    PInv attrs m' ∧ (∀ p < m.objs.length, m'.objs[p]? = m.objs[p]?) ∧ m'.objs.length = m.objs.length + 1 ∧
      cached m' m.objs.length = none := by
  unfold pickleRoundTrip at h
  cases hd : m.objs[o]? with
  | none => rw [hd] at h; cases h
  | some d =>
    rw [hd] at h
    simp only [Except.ok.injEq] at h
    subst h
    have hnew : ∀ p d', (m.objs ++ [setState (fun _ => none) (getState d)])[p]? = some d' →
        m.objs[p]? = some d' ∨ (p = m.objs.length ∧ d' = setState (fun _ => none) (getState d)) := by
      intro p d' hp
      rcases lt_trichotomy p m.objs.length with h | h | h
      · rw [List.getElem?_append_left h] at hp; exact Or.inl hp
      · subst h; simp at hp; exact Or.inr ⟨rfl, hp.symm⟩
      · rw [List.getElem?_eq_none (by simp; omega)] at hp; cases hp
    have hop : setState (fun _ => none) (getState d) "_op" = some .none := by simp [setState, getState]
    refine ⟨⟨?_, ?_, ?_⟩, fun p hp => List.getElem?_append_left hp, by simp, ?_⟩
    · intro p d' hp
      rcases hnew p d' hp with h | ⟨-, rfl⟩
      · exact hi.op p d' h
      · exact Or.inl hop
    · intro p d' hp k hk
      rcases hnew p d' hp with h | ⟨-, rfl⟩
      · exact hi.rest p d' h k hk
      · rw [← hi.rest o d hd k hk]
        simp only [setState, getState, hk, if_false]
        cases d k <;> rfl
    · intro p p' d1 d2 w h1 h2 e1 e2
      rcases hnew p d1 h1 with h1 | ⟨-, rfl⟩
      · rcases hnew p' d2 h2 with h2 | ⟨-, rfl⟩
        · exact hi.inj p p' d1 d2 w h1 h2 e1 e2
        · rw [hop] at e2; cases e2
      · rw [hop] at e1; cases e1
    · unfold cached
      simp [hop]

theorem run_inv {attrs : PDict δ} : ∀ (cs : List PCall) {m m' : PMem δ} {log}, PInv attrs m →
    runPickle cs m = .ok (m', log) → PInv attrs m' ∧ (∀ p u, cached m p = some u → cached m' p = some u) ∧
      ∀ o v, (o, v) ∈ log → cached m' o = some v ∧ ∃ w, v = .wrapper w o
  | [], m, m', log, hi, h => by
    simp only [runPickle, Except.ok.injEq, Prod.mk.injEq] at h
    obtain ⟨rfl, rfl⟩ := h
    exact ⟨hi, fun _ _ h => h, by simp⟩
  | .asLinOp o :: cs, m, m', log, hi, h => by
    simp only [runPickle, bind_ok] at h
    obtain ⟨⟨m1, v⟩, h1, ⟨m2, log'⟩, h2, he⟩ := h
    simp only [Except.ok.injEq, Prod.mk.injEq] at he
    obtain ⟨rfl, rfl⟩ := he
    obtain ⟨i1, hw, hc, hk, -⟩ := asLin_inv hi h1
    obtain ⟨i2, hk2, hl⟩ := run_inv cs i1 h2
    refine ⟨i2, fun p u hp => hk2 p u (hk p u hp), fun p u hp => ?_⟩
    rcases List.mem_cons.1 hp with hp | hp
    · cases hp; exact ⟨hk2 _ _ hc, hw⟩
    · exact hl p u hp
  | .pickle o :: cs, m, m', log, hi, h => by
    simp only [runPickle, bind_ok] at h
    obtain ⟨m1, h1, h2⟩ := h
    obtain ⟨i1, hk, hlen, -⟩ := pickle_inv hi h1
    obtain ⟨i2, hk2, hl⟩ := run_inv cs i1 h2
    refine ⟨i2, fun p u hp => hk2 p u ?_, hl⟩
    have hp' : p < m.objs.length := by
      by_contra hc
      unfold cached at hp
      rw [List.getElem?_eq_none (by omega)] at hp
      cases hp
    unfold cached at hp ⊢
    rw [hk p hp']; exact hp

/-- C13: start from any operator and run any history of `as_linear_operator()` and pickle round-trip calls on it
and on its copies. Every object has the attributes of the original (other than the private cache); each
object's `as_linear_operator()` returns the same wrapper every time it is called, that wrapper is bound to this
very object, and different objects have different wrappers. -/
theorem C13_pickle (attrs : PDict δ) (cs : List PCall) {m : PMem δ} {log : List (ℕ × PVal δ)}
    (h : runPickle cs (newObj attrs ⟨[], 0⟩) = .ok (m, log)) :
    (∀ (o : ℕ) (d : PDict δ), m.objs[o]? = some d → ∀ k, k ≠ "_op" → d k = attrs k) ∧
    (∀ o v, (o, v) ∈ log → ∃ w, v = .wrapper w o) ∧
    (∀ o v v', (o, v) ∈ log → (o, v') ∈ log → v = v') ∧
    (∀ o o' v, (o, v) ∈ log → (o', v) ∈ log → o = o') := by
  obtain ⟨i, -, hl⟩ := run_inv cs (newObj_inv attrs) h
  refine ⟨i.rest, fun o v hv => (hl o v hv).2, fun o v v' h1 h2 => ?_, fun o o' v h1 h2 => ?_⟩
  · have := (hl o v h1).1; rw [(hl o v' h2).1] at this; exact (Option.some.inj this).symm
  · obtain ⟨w, rfl⟩ := (hl o v h1).2
    obtain ⟨w', hw'⟩ := (hl o' _ h2).2
    cases hw'; rfl

/-- C13: a history never fails as long as it names existing objects. -/
theorem C13_never_fails (attrs : PDict δ) : ∀ (cs : List PCall) (m : PMem δ), PInv attrs m →
    (∀ c ∈ cs, match c with | .asLinOp o => o < m.objs.length | .pickle o => o < m.objs.length) →
    ∃ r, runPickle cs m = .ok r
  | [], m, _, _ => ⟨_, rfl⟩
  | .asLinOp o :: cs, m, hi, hc => by
    have ho : o < m.objs.length := hc (.asLinOp o) (by simp)
    have : ∃ r, asLinearOperator o m = .ok r := by
      unfold asLinearOperator
      rw [List.getElem?_eq_getElem ho]
      rcases hi.op o _ (List.getElem?_eq_getElem ho) with h | ⟨w, -, h⟩ <;> simp only [h] <;> exact ⟨_, rfl⟩
    obtain ⟨⟨m1, v⟩, h1⟩ := this
    obtain ⟨i1, -, -, -, hlen⟩ := asLin_inv hi h1
    obtain ⟨r, hr⟩ := C13_never_fails attrs cs m1 i1 (fun c hc' => by
      have := hc c (by simp [hc']); cases c <;> simp only at this ⊢ <;> omega)
    exact ⟨(r.1, (o, v) :: r.2), by simp only [runPickle, h1, bind, Except.bind, hr]⟩
  | .pickle o :: cs, m, hi, hc => by
    have ho : o < m.objs.length := hc (.pickle o) (by simp)
    have : ∃ r, pickleRoundTrip o m = .ok r := by
      unfold pickleRoundTrip
      rw [List.getElem?_eq_getElem ho]
      exact ⟨_, rfl⟩
    obtain ⟨m1, h1⟩ := this
    obtain ⟨i1, -, hlen, -⟩ := pickle_inv hi h1
    obtain ⟨r, hr⟩ := C13_never_fails attrs cs m1 i1 (fun c hc' => by
      have := hc c (by simp [hc']); cases c <;> simp only at this ⊢ <;> omega)
    exact ⟨r, by simp only [runPickle, h1, bind, Except.bind, hr]⟩

/-- use the wrapper, pickle, use both again -/
example : ∃ r, runPickle [.asLinOp 0, .pickle 0, .asLinOp 1, .asLinOp 0, .pickle 1, .asLinOp 2, .asLinOp 1]
    (newObj (fun k => if k = "shape" then some (.data (3 : ℕ)) else none) ⟨[], 0⟩) = .ok r ∧
    r.2.map Prod.snd = [.wrapper 0 0, .wrapper 1 1, .wrapper 0 0, .wrapper 2 2, .wrapper 1 1] := ⟨_, rfl, rfl⟩

end Verif
