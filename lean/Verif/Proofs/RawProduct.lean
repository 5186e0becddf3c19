import Verif.Spec.RawProduct
import Verif.Proofs.Built
import Verif.Proofs.LLGP

/-! Products of operators with arguments of any size. -/

namespace Verif

theorem foldExcept_ok {σ γ : Type} {f : σ → γ → Except PyErr σ} {g : σ → γ → σ} (inv : σ → Prop) : ∀ (l : List γ) (s : σ),
    (∀ a ∈ l, ∀ s, inv s → f s a = .ok (g s a) ∧ inv (g s a)) → inv s → foldExcept f l s = .ok (l.foldl g s) ∧ inv (l.foldl g s)
  | [], _, _, hs => ⟨rfl, hs⟩
  | a :: l, s, h, hs => by
    obtain ⟨h1, h2⟩ := h a (by simp) s hs
    show (f s a >>= fun s => foldExcept f l s) = _ ∧ _
    rw [h1, ok_bind]
    exact foldExcept_ok inv l (g s a) (fun b hb => h b (by simp [hb])) h2

theorem raises_bind {α β : Type} {x : Except PyErr α} (f : α → Except PyErr β) (h : Raises x) : Raises (x >>= f) := by
  obtain ⟨e, rfl⟩ := h
  exact ⟨e, rfl⟩

theorem raises_bind_of {α β : Type} (x : Except PyErr α) {f : α → Except PyErr β} (h : ∀ a, x = .ok a → Raises (f a)) : Raises (x >>= f) := by
  cases hx : x with
  | error e => exact ⟨e, rfl⟩
  | ok a => exact h a hx

theorem foldExcept_raises {σ γ : Type} {f : σ → γ → Except PyErr σ} {a : γ} (ha : ∀ s, Raises (f s a)) : ∀ (l : List γ) (s : σ), a ∈ l → Raises (foldExcept f l s)
  | [], _, h => by cases h
  | b :: l, s, h => by
    show Raises (f s b >>= fun s => foldExcept f l s)
    rcases List.mem_cons.1 h with rfl | h
    · exact raises_bind _ (ha s)
    · exact raises_bind_of _ fun s' _ => foldExcept_raises ha l s' h

theorem mapExcept_raises {α β : Type} {f : α → Except PyErr β} {a : α} (ha : Raises (f a)) : ∀ l : List α, a ∈ l → Raises (mapExcept f l)
  | [], h => by cases h
  | b :: l, h => by
    show Raises (f b >>= fun y => _)
    rcases List.mem_cons.1 h with rfl | h
    · exact raises_bind _ ha
    · exact raises_bind_of _ fun y _ => raises_bind _ (mapExcept_raises ha l h)

theorem fillTo_self {α : Type} [Zero α] {n : ℕ} {y : List α} (h : y.length = n) : fillTo n y = .ok y := if_pos h

/-- arguments of the documented size give the documented product -/
structure RawOp.Fits (r : RawOp) : Prop where
  good : Good r.obj
  vec : ∀ x : List ℝ, x.length = r.obj.cols → r.vec x = .ok (r.obj.matvec x)
  mat : ∀ X : Arr2 ℝ, X.WF → X.rows = r.obj.cols → r.mat X = .ok (r.obj.matmat X)

theorem rawMatmat_ok {rows : ℕ} {vec : List ℝ → Except PyErr (List ℝ)} {mv : List ℝ → List ℝ} {X : Arr2 ℝ} (h : ∀ i, vec (X.col i) = .ok (mv (X.col i)))
    (hl : ∀ i, (mv (X.col i)).length = rows) : rawMatmat rows vec X = .ok (defaultMatmat rows mv X) := by
  unfold rawMatmat
  have : mapExcept (fun i => do let y ← vec (X.col i); fillTo rows y) (List.range X.cols) = .ok ((List.range X.cols).map fun i => mv (X.col i)) := by
    refine mapExcept_ok ?_
    intro i _
    rw [h i, ok_bind, fillTo_self (hl i)]
  rw [this, ok_bind]
  rfl

theorem Fits.ofDefault {M : MatObj} {vec : List ℝ → Except PyErr (List ℝ)} (hg : Good M) (hm : M.matmat = defaultMatmat M.rows M.matvec)
    (hv : ∀ x : List ℝ, x.length = M.cols → vec x = .ok (M.matvec x)) : (M.rawDefault vec).Fits := by
  refine ⟨hg, hv, fun X _ hX => ?_⟩
  show rawMatmat M.rows vec X = .ok (M.matmat X)
  rw [hm]
  exact rawMatmat_ok (fun i => hv _ (by rw [Arr2.col_length, hX]; rfl)) fun i => hg.matvec_length (by rw [Arr2.col_length, hX]; rfl)

theorem Strict.ofDefault {M : MatObj} {vec : List ℝ → Except PyErr (List ℝ)} (hv : ∀ x : List ℝ, x.length ≠ M.cols → Raises (vec x)) : (M.rawDefault vec).Strict := by
  refine ⟨hv, fun X hX h0 => ?_⟩
  show Raises (rawMatmat M.rows vec X)
  refine raises_bind _ (mapExcept_raises (a := 0) ?_ _ (List.mem_range.2 h0))
  exact raises_bind _ (hv _ (by rw [Arr2.col_length]; exact hX))

/-! ### classes without parts -/

theorem wrap_fits {n m : ℕ} {mvm : List ℝ → Except PyErr (List ℝ)} {r : RawOp} (A : Matrix (Fin n) (Fin m) ℝ)
    (hA : ∀ x : Fin m → ℝ, mvm (List.ofFn x) = .ok (List.ofFn (A.mulVec x))) (h : rawWrap n m mvm = .ok r) : Built r.obj ∧ r.Fits := by
  unfold rawWrap at h
  obtain ⟨M, hM, h⟩ := bind_ok.1 h
  have h := pure_ok.1 h
  subst h
  have hb : Built M := Built.wrap A (fun x => by rw [hA]; rfl) hM
  obtain ⟨-, -, e1, e2, e3, e4, -⟩ := wrapNew_ok hM
  refine ⟨hb, Fits.ofDefault hb.good (by rw [e4, e1, e3]) fun x hx => ?_⟩
  have hl := ofFn_of_list (hx.trans e2)
  have := hA fun j => x.getD j 0
  rw [← hl] at this
  rw [e3]
  show mvm x = .ok ((mvm x).toOption.getD [])
  rw [this]
  rfl

theorem dense_fits {a : NDArr ℝ} {r : RawOp} (hw : a.WF) (h : rawDense a = .ok r) : Built r.obj ∧ r.Fits ∧ r.Strict := by
  unfold rawDense at h
  obtain ⟨M, hM, h⟩ := bind_ok.1 h
  have h := pure_ok.1 h
  subst h
  have hb : Built M := Built.dense hw hM
  exact ⟨hb, ⟨hb.good, fun x hx => if_pos hx, fun X _ hX => if_pos hX⟩, fun x hx => ⟨_, if_neg hx⟩, fun X hX _ => ⟨_, if_neg hX⟩⟩

theorem identity_fits {n : ℕ} {r : RawOp} (h : rawIdentity n = .ok r) : Built r.obj ∧ r.Fits ∧ r.obj.cols = n ∧ ∀ x, r.vec x = .ok x := by
  unfold rawIdentity at h
  obtain ⟨M, hM, h⟩ := bind_ok.1 h
  have h := pure_ok.1 h
  subst h
  have hb : Built M := Built.identity hM
  have e := hM
  simp only [identityNew, bind_ok, pure_ok] at e
  obtain ⟨-, -, rfl⟩ := e
  exact ⟨hb, ⟨hb.good, fun x _ => rfl, fun X _ _ => rfl⟩, rfl, fun x => rfl⟩

theorem diag_ok {v : NDArr ℝ} {M : MatObj} (hw : v.WF) (h : diagNew v = .ok M) : M.cols = v.data.length ∧ M.rows = v.data.length ∧ M.matvec = (fun x => vmul x v.data) ∧
    M.matmat = fun X => Arr2.of M.rows X.cols fun i j => v.data.getD i 0 * X.get i j := by
  unfold diagNew at h
  obtain ⟨n, h1, h⟩ := bind_ok.1 h
  obtain ⟨-, h2, h⟩ := bind_ok.1 h
  split_ifs at h with h3
  have h := pure_ok.1 h
  subst h
  have hl : v.data.length = n := by
    obtain ⟨shape, data⟩ := v
    match shape, h1, h3, hw with
    | [k], h1, _, hw =>
      cases h1
      exact hw.trans (by simp)
    | [], h1, _, _ => cases h1
    | _ :: _ :: _, _, h3, _ => exact absurd (not_not.1 h3) (by simp [NDArr.ndim])
  exact ⟨hl.symm, hl.symm, rfl, rfl⟩

theorem diag_fits {v : NDArr ℝ} {r : RawOp} (hw : v.WF) (h : rawDiag v = .ok r) : Built r.obj ∧ r.Fits ∧ r.obj.cols = v.data.length ∧
    r.vec = fun x => bcast (· * ·) x v.data := by
  unfold rawDiag at h
  obtain ⟨M, hM, h⟩ := bind_ok.1 h
  have h := pure_ok.1 h
  subst h
  have hb : Built M := Built.diag hw hM
  obtain ⟨e1, e2, e3, e4⟩ := diag_ok hw hM
  refine ⟨hb, ⟨hb.good, fun x hx => ?_, fun X _ hX => ?_⟩, e1, rfl⟩
  · rw [e3]
    exact if_pos (hx.trans e1)
  · rw [e4, e2]
    exact if_pos (e1.symm.trans hX.symm)

theorem rfft_length (x : List ℝ) (n : ℕ) : (rfft x n).length = n / 2 + 1 := by
  unfold rfft
  simp

theorem toeplitz_fits {top : NDArr ℝ} {r : RawOp} (hw : top.WF) (h : rawToeplitz top = .ok r) : Built r.obj ∧ r.Fits ∧ r.Strict := by
  unfold rawToeplitz at h
  obtain ⟨M, hM, h⟩ := bind_ok.1 h
  have h := pure_ok.1 h
  subst h
  have hb : Built M := Built.toeplitz hw hM
  have e := hM
  unfold toeplitzNew at e
  obtain ⟨n, h1, e⟩ := bind_ok.1 e
  split_ifs at e with h2 h3
  obtain ⟨_, h4, e⟩ := bind_ok.1 e
  have e := pure_ok.1 e
  subst e
  have hl : top.data.length = n := by
    have := hw
    unfold NDArr.WF at this
    rw [this, not_not.1 h2]; simp
  have hne : top.data ≠ [] := fun h => h3 (by rw [h]; rfl)
  have h0 : 0 < n := (matrixInit_ok.1 h4).1
  refine ⟨hb, Fits.ofDefault hb.good rfl fun x hx => ?_, Strict.ofDefault fun x hx => ?_⟩
  · have hx : x.length = n := hx
    show rawToeplitzVec top.data x = .ok (toeplitzMatvec top.data x)
    unfold rawToeplitzVec
    rw [if_neg (by omega)]
    show (fillTo (rfft x (x.length * 2)).length (rfft (cyclicExtend top.data) (cyclicExtend top.data).length) >>= fun factor => _) = _
    rw [fillTo_self (by rw [rfft_length, rfft_length, cyclicExtend_length hne, hl, hx]), ok_bind]
    rfl
  · have hx : x.length ≠ n := hx
    show Raises (rawToeplitzVec top.data x)
    unfold rawToeplitzVec
    split_ifs with h5
    · exact ⟨_, rfl⟩
    · refine raises_bind _ ⟨.valueError, ?_⟩
      unfold fillTo
      rw [if_neg (by rw [rfft_length, rfft_length, cyclicExtend_length hne, hl]; omega), if_neg (by rw [rfft_length, cyclicExtend_length hne, hl]; omega)]

theorem bttb_fits {top : NDArr ℝ} {sizes : NDArr ℕ} {r : RawOp} (hw : top.WF) (h : rawBttb top sizes = .ok r) : Built r.obj ∧ r.Fits ∧ r.Strict := by
  unfold rawBttb at h
  obtain ⟨M, hM, h⟩ := bind_ok.1 h
  have h := pure_ok.1 h
  subst h
  have hb : Built M := Built.bttb hw hM
  obtain ⟨-, -, -, -, -, h6, h7, -, -⟩ := bttb_ok hM
  have hl := (bttb_represents hw hM).2.1
  refine ⟨hb, Fits.ofDefault hb.good h7 fun x hx => ?_, Strict.ofDefault fun x hx => ⟨.valueError, if_neg (by rw [← hl]; exact hx)⟩⟩
  rw [h6]
  exact if_pos (hx.trans hl)

/-! ### sums, compositions -/

theorem bcast_same (f : ℝ → ℝ → ℝ) {x y : List ℝ} (h : x.length = y.length) : bcast f x y = .ok (List.zipWith f x y) := if_pos h

theorem sum_fits {Ks : List RawOp} {r : RawOp} (hb : ∀ K ∈ Ks, Built K.obj ∧ K.Fits) (h : rawSum Ks = .ok r) : Built r.obj ∧ r.Fits ∧
    ((∃ K ∈ Ks, K.Strict) → r.Strict) := by
  unfold rawSum at h
  obtain ⟨M, hM, h⟩ := bind_ok.1 h
  have h := pure_ok.1 h
  subst h
  have hbM : Built M := Built.sum (fun K hK => by
    obtain ⟨K, hK', rfl⟩ := List.mem_map.1 hK
    exact (hb K hK').1) hM
  have e := hM
  cases Ks with
  | nil => cases e
  | cons K0 rest =>
    have hsame : ∀ K ∈ K0 :: rest, K.obj.rows = M.rows ∧ K.obj.cols = M.cols ∧ M.matmat = defaultMatmat M.rows M.matvec ∧
        M.matvec = fun x => (rest.map RawOp.obj).foldl (fun s K => vadd s (K.matvec x)) (K0.obj.matvec x) := by
      intro K hK
      simp only [List.map_cons, sumMatrixNew] at e
      split_ifs at e with h1
      simp only [bind_ok, pure_ok] at e
      obtain ⟨_, _, rfl⟩ := e
      refine ⟨?_, ?_, rfl, rfl⟩
      all_goals
        have hc := not_not.1 h1
        obtain ⟨p, hp⟩ := Finset.card_eq_one.1 hc
        have m0 : (K0.obj.rows, K0.obj.cols) = p := by
          rw [← Finset.mem_singleton, ← hp]; simp
        have mK : (K.obj.rows, K.obj.cols) = p := by
          rw [← Finset.mem_singleton, ← hp, List.mem_toFinset]
          have := List.mem_map_of_mem (f := fun K : MatObj => (K.rows, K.cols)) (List.mem_map_of_mem (f := RawOp.obj) hK)
          simpa using this
        have := mK.trans m0.symm
      · exact (Prod.mk.inj this).1
      · exact (Prod.mk.inj this).2
    obtain ⟨r0, c0, hmm, hmv⟩ := hsame K0 (by simp)
    have hlen : ∀ K ∈ K0 :: rest, ∀ x : List ℝ, x.length = M.cols → K.vec x = .ok (K.obj.matvec x) ∧ (K.obj.matvec x).length = M.rows := fun K hK x hx => by
      obtain ⟨h1, h2, -, -⟩ := hsame K hK
      exact ⟨(hb K hK).2.vec x (hx.trans h2.symm), by rw [(hb K hK).2.good.matvec_length (hx.trans h2.symm), h1]⟩
    refine ⟨hbM, Fits.ofDefault hbM.good hmm fun x hx => ?_, fun ⟨K, hK, hS⟩ => Strict.ofDefault fun x hx => ?_⟩
    · show (K0.vec x >>= fun y => foldExcept _ rest y) = _
      obtain ⟨h1, h2⟩ := hlen K0 (by simp) x hx
      rw [h1, ok_bind, (foldExcept_ok (g := fun s K => vadd s (K.obj.matvec x)) (fun s => s.length = M.rows) rest (K0.obj.matvec x) (fun K hK s hs => ?_) h2).1, hmv]
      · show Except.ok _ = Except.ok (List.foldl (fun s (K : MatObj) => vadd s (K.matvec x)) (K0.obj.matvec x) (rest.map RawOp.obj))
        rw [List.foldl_map]
      obtain ⟨h3, h4⟩ := hlen K (by simp [hK]) x hx
      exact ⟨by rw [h3, ok_bind, bcast_same _ (hs.trans h4.symm)]; rfl, by rw [vadd_length, hs, h4, min_self]⟩
    · show Raises (K0.vec x >>= fun y => foldExcept _ rest y)
      have hx' : x.length ≠ K.obj.cols := by rw [(hsame K hK).2.1]; exact hx
      rcases List.mem_cons.1 hK with rfl | hK
      · exact raises_bind _ (hS.vec x hx')
      · exact raises_bind_of _ fun y _ => foldExcept_raises (a := K) (fun s => raises_bind _ (hS.vec x hx')) rest y hK

theorem foldExcept_append {σ γ : Type} (f : σ → γ → Except PyErr σ) : ∀ (l l' : List γ) (s : σ), foldExcept f (l ++ l') s = foldExcept f l s >>= fun s => foldExcept f l' s
  | [], l', s => rfl
  | a :: l, l', s => by
    show (f s a >>= fun s => foldExcept f (l ++ l') s) = (f s a >>= fun s => foldExcept f l s) >>= _
    cases f s a with
    | error e => rfl
    | ok t => exact foldExcept_append f l l' t

theorem comp_vec_ok : ∀ (mats : List RawOp) (last : RawOp), mats.getLast? = some last → (mats.IsChain fun A B => A.obj.cols = B.obj.rows) → (∀ K ∈ mats, K.Fits) →
    ∀ x : List ℝ, x.length = last.obj.cols → ∃ y, foldExcept (fun x K => K.vec x) mats.reverse x = .ok y ∧ y = mats.foldr (fun M x => M.obj.matvec x) x ∧
      ∀ f, mats.head? = some f → y.length = f.obj.rows
  | [], _, h, _, _, _, _ => by simp at h
  | [M], l, hl, _, hF, x, hx => by
    simp at hl; subst hl
    refine ⟨_, ?_, rfl, fun f hf => ?_⟩
    · show (M.vec x >>= fun s => .ok s) = _
      rw [(hF M (by simp)).vec x hx]; rfl
    · simp at hf; subst hf
      exact (hF M (by simp)).good.matvec_length hx
  | M :: M' :: rest, l, hl, hc, hF, x, hx => by
    obtain ⟨h1, h2⟩ := List.isChain_cons_cons.1 hc
    obtain ⟨y, hy, hy', hyl⟩ := comp_vec_ok (M' :: rest) l (by simpa using hl) h2 (fun K hK => hF K (by simp [hK])) x hx
    have hyl := (hyl M' rfl).trans h1.symm
    refine ⟨M.obj.matvec y, ?_, ?_, fun f hf => ?_⟩
    · rw [List.reverse_cons, foldExcept_append, hy, ok_bind]
      show (M.vec y >>= fun s => .ok s) = _
      rw [(hF M (by simp)).vec y hyl]; rfl
    · rw [List.foldr_cons, ← hy']
    · simp at hf; subst hf
      exact (hF M (by simp)).good.matvec_length hyl

theorem comp_mat_ok : ∀ (mats : List RawOp) (last : RawOp), mats.getLast? = some last → (mats.IsChain fun A B => A.obj.cols = B.obj.rows) → (∀ K ∈ mats, K.Fits) →
    ∀ X : Arr2 ℝ, X.WF → X.rows = last.obj.cols → ∃ Y, foldExcept (fun X K => K.mat X) mats.reverse X = .ok Y ∧ Y = mats.foldr (fun M X => M.obj.matmat X) X ∧
      Y.WF ∧ ∀ f, mats.head? = some f → Y.rows = f.obj.rows
  | [], _, h, _, _, _, _, _ => by simp at h
  | [M], l, hl, _, hF, x, hw, hx => by
    simp at hl; subst hl
    have hm := (hF M (by simp)).good.matmat x hw hx
    refine ⟨_, ?_, rfl, by rw [List.foldr_cons, List.foldr_nil, hm]; exact Arr2.of_wf _ _ _, fun f hf => ?_⟩
    · show (M.mat x >>= fun s => .ok s) = _
      rw [(hF M (by simp)).mat x hw hx]; rfl
    · simp at hf; subst hf
      rw [List.foldr_cons, List.foldr_nil, hm]; rfl
  | M :: M' :: rest, l, hl, hc, hF, x, hw, hx => by
    obtain ⟨h1, h2⟩ := List.isChain_cons_cons.1 hc
    obtain ⟨y, hy, hy', hyw, hyl⟩ := comp_mat_ok (M' :: rest) l (by simpa using hl) h2 (fun K hK => hF K (by simp [hK])) x hw hx
    have hyl := (hyl M' rfl).trans h1.symm
    have hm := (hF M (by simp)).good.matmat y hyw hyl
    refine ⟨M.obj.matmat y, ?_, ?_, by rw [hm]; exact Arr2.of_wf _ _ _, fun f hf => ?_⟩
    · rw [List.reverse_cons, foldExcept_append, hy, ok_bind]
      show (M.mat y >>= fun s => .ok s) = _
      rw [(hF M (by simp)).mat y hyw hyl]; rfl
    · rw [List.foldr_cons, ← hy']
    · simp at hf; subst hf
      rw [hm]; rfl

theorem composition_fits {mats : List RawOp} {r : RawOp} (hb : ∀ K ∈ mats, Built K.obj ∧ K.Fits) (hs : mats.IsChain fun A B => A.obj.cols = B.obj.rows)
    (h : rawComposition mats = .ok r) : Built r.obj ∧ r.Fits ∧ ∀ last, mats.getLast? = some last → last.Strict → r.Strict := by
  unfold rawComposition at h
  obtain ⟨M, hM, h⟩ := bind_ok.1 h
  have h := pure_ok.1 h
  subst h
  have hbM : Built M := Built.composition (fun K hK => by
    obtain ⟨K, hK', rfl⟩ := List.mem_map.1 hK
    exact (hb K hK').1) (by rw [List.isChain_map]; exact hs) hM
  obtain ⟨f, l, hf, hl, -, -, -, hc, hv, hm, -⟩ := composition_ok hM
  rw [List.getLast?_map] at hl
  obtain ⟨last, hl', rfl⟩ := Option.map_eq_some_iff.1 hl
  refine ⟨hbM, ⟨hbM.good, fun x hx => ?_, fun X hw hX => ?_⟩, fun l' h' hS => ?_⟩
  · obtain ⟨y, hy, hy', -⟩ := comp_vec_ok mats last hl' hs (fun K hK => (hb K hK).2) x (hx.trans hc)
    show foldExcept _ mats.reverse x = .ok (M.matvec x)
    rw [hy, hv, hy']
    exact congrArg Except.ok (List.foldr_map ..).symm
  · obtain ⟨y, hy, hy', -⟩ := comp_mat_ok mats last hl' hs (fun K hK => (hb K hK).2) X hw (hX.trans hc)
    show foldExcept _ mats.reverse X = .ok (M.matmat X)
    rw [hy, hm, hy']
    exact congrArg Except.ok (List.foldr_map ..).symm
  · rw [hl'] at h'
    cases h'
    have : ∃ l, mats.reverse = last :: l := by
      obtain ⟨l, hl⟩ := List.getLast?_eq_some_iff.1 hl'
      exact ⟨l.reverse, by rw [hl]; simp⟩
    obtain ⟨l, hl⟩ := this
    refine ⟨fun x hx => ?_, fun X hX h0 => ?_⟩
    · show Raises (foldExcept _ mats.reverse x)
      rw [hl]
      exact raises_bind _ (hS.vec x (by rw [← hc]; exact hx))
    · show Raises (foldExcept _ mats.reverse X)
      rw [hl]
      exact raises_bind _ (hS.mat X (by rw [← hc]; exact hX) h0)

theorem csr_wrap_fits {W : Arr2 ℝ} {w : RawOp} (h : rawWrap W.rows W.cols (csrDot W) = .ok w) : Built w.obj ∧ w.Fits ∧ w.Strict ∧ w.obj.rows = W.rows ∧ w.obj.cols = W.cols := by
  have hA : ∀ x : Fin W.cols → ℝ, csrDot W (List.ofFn x) = .ok (List.ofFn ((fnMatrix W.rows W.cols W.get).mulVec x)) := fun x => by
    unfold csrDot
    rw [if_pos (by simp)]
    unfold Arr2.dotv
    rw [vmk_ofFn]
    refine congrArg (fun f => Except.ok (List.ofFn f)) (funext fun i => ?_)
    rw [Finset.sum_range]
    refine Finset.sum_congr rfl fun j _ => ?_
    rw [ofFn_getD]; rfl
  obtain ⟨h1, h2⟩ := wrap_fits _ hA h
  unfold rawWrap at h
  obtain ⟨M, hM, h⟩ := bind_ok.1 h
  have h := pure_ok.1 h
  subst h
  obtain ⟨-, -, e1, e2, -, -, -⟩ := wrapNew_ok hM
  exact ⟨h1, h2, Strict.ofDefault fun x hx => ⟨.valueError, if_neg fun h => hx (by rw [e2, h])⟩, e1, e2⟩

theorem ski_fits {K : RawOp} {W : Arr2 ℝ} {r : RawOp} (hb : Built K.obj ∧ K.Fits) (hr : K.obj.rows = W.cols) (hc : K.obj.cols = W.cols) (h : rawSki K W W.T = .ok r) :
    Built r.obj ∧ r.Fits ∧ r.Strict := by
  unfold rawSki at h
  obtain ⟨M, hM, h⟩ := bind_ok.1 h
  obtain ⟨w, hw, h⟩ := bind_ok.1 h
  obtain ⟨wt, hwt, h⟩ := bind_ok.1 h
  obtain ⟨c, hcm, h⟩ := bind_ok.1 h
  have h := pure_ok.1 h
  subst h
  obtain ⟨b1, f1, s1, r1, c1⟩ := csr_wrap_fits hw
  obtain ⟨b2, f2, s2, r2, c2⟩ := csr_wrap_fits hwt
  have hbM : Built M := Built.ski hb.1 hr hc hM
  obtain ⟨b3, f3, s3'⟩ := composition_fits (mats := [w, K, wt]) (by
    intro L hL
    simp only [List.mem_cons, List.not_mem_nil, or_false] at hL
    rcases hL with rfl | rfl | rfl
    · exact ⟨b1, f1⟩
    · exact hb
    · exact ⟨b2, f2⟩) (by
      simp only [List.isChain_cons_cons, List.isChain_singleton, and_true]
      exact ⟨by rw [c1, hr], by rw [r2, hc]; rfl⟩) hcm
  have s3 := s3' wt rfl s2
  clear s3'
  -- the composition of `SKI` has the same products
  unfold skiNew at hM
  obtain ⟨w', hw', hM⟩ := bind_ok.1 hM
  obtain ⟨wt', hwt', hM⟩ := bind_ok.1 hM
  obtain ⟨c', hc', hM⟩ := bind_ok.1 hM
  have hM := pure_ok.1 hM
  subst hM
  unfold rawWrap at hw hwt
  obtain ⟨v, hv, hw⟩ := bind_ok.1 hw
  have hw := pure_ok.1 hw
  subst hw
  obtain ⟨vt, hvt, hwt⟩ := bind_ok.1 hwt
  have hwt := pure_ok.1 hwt
  subst hwt
  unfold rawComposition at hcm
  obtain ⟨d, hd, hcm⟩ := bind_ok.1 hcm
  have hcm := pure_ok.1 hcm
  subst hcm
  obtain ⟨-, -, p1, p2, p3, p4, -⟩ := wrapNew_ok hw'
  obtain ⟨-, -, q1, q2, q3, q4, -⟩ := wrapNew_ok hwt'
  obtain ⟨-, -, p1', p2', p3', p4', -⟩ := wrapNew_ok hv
  obtain ⟨-, -, q1', q2', q3', q4', -⟩ := wrapNew_ok hvt
  obtain ⟨f, l, hf, hl, -, -, -, e3, e4, e5, -⟩ := composition_ok hc'
  obtain ⟨f', l', hf', hl', -, -, -, e3', e4', e5', -⟩ := composition_ok hd
  cases hl
  cases hl'
  have e3 : c'.cols = wt'.cols := e3
  have e3' : d.cols = vt.cols := e3'
  have hcols : c'.cols = d.cols := by rw [e3, e3', q2, q2']
  have dv : ∀ (A : Arr2 ℝ) (x : List ℝ), x.length = A.cols → (csrDot A x).toOption.getD [] = A.dotv x := fun A x hx => by
    unfold csrDot; rw [if_pos hx.symm]; rfl
  have dm : ∀ (A : Arr2 ℝ) (X : Arr2 ℝ), X.rows = A.cols → defaultMatmat A.rows (fun x => (csrDot A x).toOption.getD []) X = defaultMatmat A.rows A.dotv X := fun A X hX => by
    unfold defaultMatmat
    have : ((List.range X.cols).flatMap fun i => (csrDot A (X.col i)).toOption.getD []) = (List.range X.cols).flatMap fun i => A.dotv (X.col i) :=
      congrArg (fun g => List.flatMap g (List.range X.cols)) (funext fun i => dv A _ (by rw [Arr2.col_length, hX]))
    rw [this]
  have hcols' : ∀ n : ℕ, n = c'.cols ↔ n = W.T.cols := fun n => by rw [e3, q2]
  refine ⟨hbM, ⟨hbM.good, fun x hx => ?_, fun X hX hr => ?_⟩, fun x hx => s3.vec x (by rw [← hcols]; exact hx), fun X hX => s3.mat X (by rw [← hcols]; exact hX)⟩
  · refine (f3.vec x (hx.trans hcols)).trans (congrArg Except.ok ?_)
    show d.matvec x = c'.matvec x
    have hx := (hcols' _).1 hx
    rw [e4, e4']
    show v.matvec (K.obj.matvec (vt.matvec x)) = w'.matvec (K.obj.matvec (wt'.matvec x))
    rw [p3, q3, p3', q3']
    show (csrDot W (K.obj.matvec ((csrDot W.T x).toOption.getD []))).toOption.getD [] = _
    rw [dv _ _ hx, dv]
    rw [hb.2.good.matvec_length (by rw [Arr2.dotv_length, hc]; rfl), ‹K.obj.rows = W.cols›]
  · refine (f3.mat X hX (hr.trans hcols)).trans (congrArg Except.ok ?_)
    show d.matmat X = c'.matmat X
    have hx := (hcols' _).1 hr
    rw [e5, e5']
    show v.matmat (K.obj.matmat (vt.matmat X)) = w'.matmat (K.obj.matmat (wt'.matmat X))
    rw [p4, q4, p4', q4', dm _ _ hx, dm]
    have hT : (defaultMatmat W.T.rows W.T.dotv X).WF ∧ (defaultMatmat W.T.rows W.T.dotv X).rows = K.obj.cols := ⟨Arr2.T_wf _, hc.symm⟩
    rw [hb.2.good.matmat _ hT.1 hT.2]
    exact ‹K.obj.rows = W.cols›

/-! ### Kronecker products -/

theorem kron_ok {A B M : MatObj} (h : kroneckerNew A B = .ok M) : M.rows = A.rows * B.rows ∧ M.cols = A.cols * B.cols ∧ M.matmat = defaultMatmat M.rows M.matvec ∧
    M.matvec = fun x => (A.matmat ((B.matmat (Arr2.ofVec x B.cols).T).reshapeCols A.cols).T).data := by
  simp only [kroneckerNew, bind_ok, pure_ok] at h
  obtain ⟨_, _, rfl⟩ := h
  exact ⟨rfl, rfl, rfl, rfl⟩

/-- which lengths the loop of `Kronecker.matvec` accepts, and what it returns -/
theorem kron_vec {A B : RawOp} (hA : A.Fits) (hB : B.Fits) (x : List ℝ) :
    (B.obj.cols ∣ x.length → A.obj.cols ∣ B.obj.rows * (x.length / B.obj.cols) →
      rawKronVec A B x = .ok (A.obj.matmat ((B.obj.matmat (Arr2.ofVec x B.obj.cols).T).reshapeCols A.obj.cols).T).data ∧
      (A.obj.matmat ((B.obj.matmat (Arr2.ofVec x B.obj.cols).T).reshapeCols A.obj.cols).T).data.length = A.obj.rows * (B.obj.rows * (x.length / B.obj.cols) / A.obj.cols)) ∧
    (¬ (B.obj.cols ∣ x.length ∧ A.obj.cols ∣ B.obj.rows * (x.length / B.obj.cols)) → rawKronVec A B x = .error .valueError) := by
  have hb0 := hB.good.cpos
  have ha0 := hA.good.cpos
  have hm : ∀ X : Arr2 ℝ, X.WF → X.rows = B.obj.cols → (B.obj.matmat X).data.length = B.obj.rows * X.cols := fun X h1 h2 => by
    rw [hB.good.matmat X h1 h2]; exact Arr2.of_wf _ _ _
  have hm' : ∀ X : Arr2 ℝ, X.WF → X.rows = A.obj.cols → (A.obj.matmat X).data.length = A.obj.rows * X.cols := fun X h1 h2 => by
    rw [hA.good.matmat X h1 h2]; exact Arr2.of_wf _ _ _
  have key : B.obj.cols ∣ x.length → rawKronVec A B x = (reshapeTo (B.obj.matmat (Arr2.ofVec x B.obj.cols).T).data A.obj.cols >>= fun x2 => A.mat x2.T >>= fun y2 => pure y2.data) := fun h => by
    unfold rawKronVec
    rw [show reshapeTo x B.obj.cols = .ok (Arr2.ofVec x B.obj.cols) from if_neg (by
      rintro (h' | h')
      · omega
      · exact h' (Nat.mod_eq_zero_of_dvd h)), ok_bind, hB.mat _ (Arr2.T_wf _) rfl, ok_bind]
  refine ⟨fun h1 h2 => ?_, fun h => ?_⟩
  · rw [key h1]
    have hl : (B.obj.matmat (Arr2.ofVec x B.obj.cols).T).data.length = B.obj.rows * (x.length / B.obj.cols) := hm _ (Arr2.T_wf _) rfl
    rw [show reshapeTo (B.obj.matmat (Arr2.ofVec x B.obj.cols).T).data A.obj.cols = .ok ((B.obj.matmat (Arr2.ofVec x B.obj.cols).T).reshapeCols A.obj.cols) from if_neg (by
      rintro (h' | h')
      · omega
      · exact h' (Nat.mod_eq_zero_of_dvd (by rw [hl]; exact h2))), ok_bind, hA.mat _ (Arr2.T_wf _) rfl]
    refine ⟨rfl, (hm' _ (Arr2.T_wf _) rfl).trans ?_⟩
    show A.obj.rows * ((B.obj.matmat (Arr2.ofVec x B.obj.cols).T).data.length / A.obj.cols) = _
    rw [hl]
  · by_cases h1 : B.obj.cols ∣ x.length
    · rw [key h1]
      have hl : (B.obj.matmat (Arr2.ofVec x B.obj.cols).T).data.length = B.obj.rows * (x.length / B.obj.cols) := hm _ (Arr2.T_wf _) rfl
      rw [show reshapeTo (B.obj.matmat (Arr2.ofVec x B.obj.cols).T).data A.obj.cols = .error .valueError from if_pos (.inr fun h' =>
        h ⟨h1, by rw [← hl]; exact Nat.dvd_of_mod_eq_zero h'⟩)]
      rfl
    · unfold rawKronVec
      rw [show reshapeTo x B.obj.cols = .error .valueError from if_pos (.inr fun h' => h1 (Nat.dvd_of_mod_eq_zero h'))]
      rfl

theorem kron_fits {A B r : RawOp} (hA : Built A.obj ∧ A.Fits) (hB : Built B.obj ∧ B.Fits) (h : rawKron A B = .ok r) : Built r.obj ∧ r.Fits ∧
    r.obj.cols = A.obj.cols * B.obj.cols ∧ r.vec = rawKronVec A B := by
  unfold rawKron at h
  obtain ⟨M, hM, h⟩ := bind_ok.1 h
  have h := pure_ok.1 h
  subst h
  have hbM : Built M := Built.kronecker hA.1 hB.1 hM
  obtain ⟨-, h2, h3, h4⟩ := kron_ok hM
  refine ⟨hbM, Fits.ofDefault hbM.good h3 fun x hx => ?_, h2, rfl⟩
  have hx : x.length = A.obj.cols * B.obj.cols := hx.trans h2
  have hd : x.length / B.obj.cols = A.obj.cols := by rw [hx, Nat.mul_div_cancel _ hB.2.good.cpos]
  rw [h4]
  exact ((kron_vec hA.2 hB.2 x).1 ⟨A.obj.cols, by rw [hx, mul_comm]⟩ ⟨B.obj.rows, by rw [hd, mul_comm]⟩).1

/-! ### block diagonal matrices -/

theorem spansFrom_zip {γ : Type} (f : γ → ℕ) : ∀ (l : List γ) (s : ℕ) (t : (ℕ × ℕ) × γ), t ∈ (spansFrom s (l.map f)).zip l → t.1.2 = t.1.1 + f t.2 ∧ t.1.2 ≤ s + (l.map f).sum ∧ t.2 ∈ l
  | [], _, _, h => by simp [spansFrom] at h
  | a :: l, s, t, h => by
    simp only [List.map_cons, spansFrom, List.zip_cons_cons, List.mem_cons] at h
    rcases h with rfl | h
    · exact ⟨rfl, by simp, by simp⟩
    · obtain ⟨h1, h2, h3⟩ := spansFrom_zip f l (s + f a) t h
      exact ⟨h1, by simp only [List.map_cons, List.sum_cons]; omega, by simp [h3]⟩

theorem spansFrom_zip2 {γ : Type} (f g : γ → ℕ) : ∀ (l : List γ) (s u : ℕ) (t : (ℕ × ℕ) × (ℕ × ℕ) × γ), t ∈ (spansFrom s (l.map f)).zip ((spansFrom u (l.map g)).zip l) →
    t.1.2 = t.1.1 + f t.2.2 ∧ t.1.2 ≤ s + (l.map f).sum ∧ t.2.1.2 = t.2.1.1 + g t.2.2 ∧ t.2.1.2 ≤ u + (l.map g).sum ∧ t.2.2 ∈ l
  | [], _, _, _, h => by simp [spansFrom] at h
  | a :: l, s, u, t, h => by
    simp only [List.map_cons, spansFrom, List.zip_cons_cons, List.mem_cons] at h
    rcases h with rfl | h
    · exact ⟨rfl, by simp, rfl, by simp, by simp⟩
    · obtain ⟨h1, h2, h3, h4, h5⟩ := spansFrom_zip2 f g l (s + f a) (u + g a) t h
      exact ⟨h1, by simp only [List.map_cons, List.sum_cons]; omega, h3, by simp only [List.map_cons, List.sum_cons]; omega, by simp [h5]⟩

/-- the last part ends at the end -/
theorem spansFrom_last {γ : Type} (f g : γ → ℕ) : ∀ (l : List γ) (s u : ℕ), l ≠ [] →
    ∃ t ∈ (spansFrom s (l.map f)).zip ((spansFrom u (l.map g)).zip l), t.2.1.2 = u + (l.map g).sum
  | [], _, _, h => absurd rfl h
  | [a], s, u, _ => ⟨((s, s + f a), (u, u + g a), a), by simp [spansFrom], by simp⟩
  | a :: b :: l, s, u, _ => by
    obtain ⟨t, h1, h2⟩ := spansFrom_last f g (b :: l) (s + f a) (u + g a) (by simp)
    refine ⟨t, ?_, ?_⟩
    · simp only [List.map_cons, spansFrom, List.zip_cons_cons] at h1 ⊢
      exact List.mem_cons_of_mem _ h1
    · rw [h2]
      simp only [List.map_cons, List.sum_cons]
      omega

theorem slice_take {x : List ℝ} {n b e : ℕ} (he : e ≤ n) : slice (x.take n) b e = slice x b e := by
  unfold slice
  rw [List.drop_take, List.take_take]
  congr 1
  omega

theorem blockDiag_matvec {blocks : List MatObj} {M : MatObj} (h : blockDiagNew blocks = .ok M) : M.matmat = defaultMatmat M.rows M.matvec ∧ M.matvec = fun x =>
    ((spansFrom 0 (blocks.map MatObj.rows)).zip ((spansFrom 0 (blocks.map MatObj.cols)).zip blocks)).foldl
      (fun result t => setSlice result t.1.1 (t.2.2.matvec (slice x t.2.1.1 t.2.1.2))) (npEmpty (blocks.map MatObj.rows).sum) := by
  have hne := (blockDiag_ok h).1
  simp only [blockDiagNew, bind_ok, pure_ok] at h
  obtain ⟨_, h1, ⟨rb, re⟩, hr, ⟨cb, ce⟩, hc, rfl⟩ := h
  obtain ⟨b, e, hbe, hz, -⟩ := beginEnd_ok (lens := blocks.map MatObj.rows) (by simpa using hne)
  obtain ⟨b', e', hbe', hz', -⟩ := beginEnd_ok (lens := blocks.map MatObj.cols) (by simpa using hne)
  rw [hbe] at hr; rw [hbe'] at hc
  simp only [ok_eq, Prod.mk.injEq] at hr hc
  obtain ⟨rfl, rfl⟩ := hr
  obtain ⟨rfl, rfl⟩ := hc
  refine ⟨rfl, ?_⟩
  funext x
  simp only
  rw [hz, hz']

theorem rawBlockDiagVec_eq {blocks : List RawOp} (hne : blocks ≠ []) (x : List ℝ) : rawBlockDiagVec blocks x =
    foldExcept (fun result (t : (ℕ × ℕ) × (ℕ × ℕ) × RawOp) => do
      let y ← t.2.2.vec (slice x t.2.1.1 t.2.1.2)
      assignSlice result t.1.1 t.1.2 y)
    ((spansFrom 0 (blocks.map fun b => b.obj.rows)).zip ((spansFrom 0 (blocks.map fun b => b.obj.cols)).zip blocks)) (npEmpty (blocks.map fun b => b.obj.rows).sum) := by
  obtain ⟨b, e, hbe, hz, -⟩ := beginEnd_ok (lens := blocks.map fun b => b.obj.rows) (by simpa using hne)
  obtain ⟨b', e', hbe', hz', -⟩ := beginEnd_ok (lens := blocks.map fun b => b.obj.cols) (by simpa using hne)
  unfold rawBlockDiagVec
  rw [hbe, ok_bind, hbe', ok_bind]
  simp only
  rw [hz, hz']

theorem zip_map_right' {α β γ : Type} (f : β → γ) : ∀ (l : List α) (l' : List β), l.zip (l'.map f) = (l.zip l').map fun p => (p.1, f p.2)
  | [], _ => rfl
  | _ :: _, [] => rfl
  | a :: l, b :: l' => by simp [zip_map_right' f l l']

theorem assignSlice_ok {t y : List ℝ} {b e : ℕ} (he : e ≤ t.length) (hy : y.length = e - b) : assignSlice t b e y = .ok (setSlice t b y) := by
  unfold assignSlice
  rw [fillTo_self (by rw [slice_length he, hy])]
  rfl

theorem blockDiag_fits {blocks : List RawOp} {r : RawOp} (hb : ∀ K ∈ blocks, Built K.obj ∧ K.Fits) (h : rawBlockDiag blocks = .ok r) : Built r.obj ∧ r.Fits ∧
    (∀ x : List ℝ, r.obj.cols ≤ x.length → r.vec x = .ok (r.obj.matvec (x.take r.obj.cols))) ∧
    ((∀ K ∈ blocks, K.Strict) → ∀ x : List ℝ, x.length < r.obj.cols → Raises (r.vec x)) := by
  unfold rawBlockDiag at h
  obtain ⟨M, hM, h⟩ := bind_ok.1 h
  have h := pure_ok.1 h
  subst h
  have hbM : Built M := Built.blockDiag (fun K hK => by
    obtain ⟨K, hK', rfl⟩ := List.mem_map.1 hK
    exact (hb K hK').1) hM
  obtain ⟨hne, -, -, hr, hc⟩ := blockDiag_ok hM
  obtain ⟨hmm, hmv⟩ := blockDiag_matvec hM
  have hne : blocks ≠ [] := fun h => hne (by rw [h]; rfl)
  have er : (blocks.map RawOp.obj).map MatObj.rows = blocks.map fun b => b.obj.rows := List.map_map ..
  have ec : (blocks.map RawOp.obj).map MatObj.cols = blocks.map fun b => b.obj.cols := List.map_map ..
  rw [er] at hr
  rw [ec] at hc
  have hlong : ∀ x : List ℝ, M.cols ≤ x.length → rawBlockDiagVec blocks x = .ok (M.matvec (x.take M.cols)) := fun x hx => by
    rw [rawBlockDiagVec_eq hne, hmv]
    simp only
    rw [er, ec, zip_map_right', zip_map_right', List.foldl_map]
    refine (foldExcept_ok (g := fun result (t : (ℕ × ℕ) × (ℕ × ℕ) × RawOp) => setSlice result t.1.1 (t.2.2.obj.matvec (slice (x.take M.cols) t.2.1.1 t.2.1.2)))
      (fun s => s.length = M.rows) _ _ (fun t ht s hs => ?_) (by rw [hr]; simp [npEmpty])).1
    obtain ⟨h1, h2, h3, h4, h5⟩ := spansFrom_zip2 _ _ _ _ _ t ht
    rw [Nat.zero_add] at h2 h4
    rw [← hr] at h2
    rw [← hc] at h4
    have hsl : (slice x t.2.1.1 t.2.1.2).length = t.2.2.obj.cols := by rw [slice_length (by omega)]; omega
    have hyl := (hb _ h5).2.good.matvec_length hsl
    rw [slice_take h4]
    refine ⟨?_, ?_⟩
    · rw [(hb _ h5).2.vec _ hsl, ok_bind]
      exact assignSlice_ok (by omega) (by rw [hyl]; omega)
    · rw [setSlice_length (by rw [hyl]; omega)]; exact hs
  refine ⟨hbM, Fits.ofDefault hbM.good hmm fun x hx => ?_, hlong, fun hS x hx => ?_⟩
  · rw [hlong x hx.ge, List.take_of_length_le hx.le]
  · have hx : x.length < M.cols := hx
    show Raises (rawBlockDiagVec blocks x)
    rw [rawBlockDiagVec_eq hne]
    obtain ⟨t, ht, he⟩ := spansFrom_last (fun b : RawOp => b.obj.rows) (fun b : RawOp => b.obj.cols) blocks 0 0 hne
    obtain ⟨-, -, h3, -, h5⟩ := spansFrom_zip2 _ _ _ _ _ t ht
    have hp := (hb _ h5).2.good.cpos
    refine foldExcept_raises (a := t) (fun s => raises_bind _ ((hS _ h5).vec _ ?_)) _ _ ht
    rw [Nat.zero_add, ← hc] at he
    unfold slice
    rw [List.length_take, List.length_drop]
    omega

/-! ### block matrices -/

theorem plusSlice_ok {t y : List ℝ} {b e : ℕ} (he : e ≤ t.length) (hy : y.length = e - b) : plusSlice t b e y = .ok (setSlice t b (vadd (slice t b e) y)) := by
  unfold plusSlice
  rw [fillTo_self (by rw [slice_length he, hy])]
  rfl

theorem slice_append {s z : List ℝ} {b e : ℕ} (he : e ≤ s.length) : slice (s ++ z) b e = slice s b e := by
  have := slice_take (x := s ++ z) (n := s.length) (b := b) he
  rw [← this, List.take_left' rfl]

theorem setSlice_append {s z v : List ℝ} {b : ℕ} (h : b + v.length ≤ s.length) : setSlice (s ++ z) b v = setSlice s b v ++ z := by
  unfold setSlice
  rw [List.take_append_of_le_length (by omega), List.drop_append_of_le_length h]
  simp

theorem foldl_append_state {γ : Type} {g g' : List ℝ → γ → List ℝ} (z : List ℝ) (inv : List ℝ → Prop) : ∀ (l : List γ) (s : List ℝ),
    (∀ a ∈ l, ∀ s, inv s → g' (s ++ z) a = g s a ++ z ∧ inv (g s a)) → inv s → l.foldl g' (s ++ z) = l.foldl g s ++ z ∧ inv (l.foldl g s)
  | [], _, _, hs => ⟨rfl, hs⟩
  | a :: l, s, h, hs => by
    obtain ⟨h1, h2⟩ := h a (by simp) s hs
    rw [List.foldl_cons, List.foldl_cons, h1]
    exact foldl_append_state z inv l (g s a) (fun b hb => h b (by simp [hb])) h2

theorem symmBlock_ok {blocks : List (List MatObj)} {M : MatObj} {m : ℕ} (hs : ∀ row ∈ blocks, ∀ K ∈ row, K.rows = m ∧ K.cols = m) (h : symmSquareBlockNew blocks = .ok M) :
    M.rows = blocks.length * m ∧ M.cols = blocks.length * m ∧ 0 < m ∧ blocks ≠ [] ∧ (∀ row ∈ blocks, row.length = blocks.length) ∧ M.matmat = defaultMatmat M.rows M.matvec ∧
    M.matvec = fun x => ((spansFrom 0 (List.replicate blocks.length m)).zip blocks).foldl (fun result r =>
          ((spansFrom 0 (List.replicate blocks.length m)).zip r.2).foldl (fun result c =>
            setSlice result r.1.1 (vadd (slice result r.1.1 r.1.2) (c.2.matvec (slice x c.1.1 c.1.2)))) result) (vmk x.length fun _ => 0) := by
  unfold symmSquareBlockNew at h
  simp only at h
  split at h
  · cases h
  · rename_i hD
    simp only [ne_eq, not_not] at hD
    split at h
    · rename_i b00 r0 rest
      simp only [bind_ok, pure_ok] at h
      obtain ⟨_, h1, rfl⟩ := h
      obtain ⟨h1, -⟩ := matrixInit_ok.1 h1
      have hm : b00.rows = m := (hs (b00 :: r0) (by simp) b00 (by simp)).1
      set bl := (b00 :: r0) :: rest with hbl
      have hlen : ∀ row ∈ bl, row.length = bl.length := fun row hrow => by
        rw [← Finset.mem_singleton, ← hD, List.mem_toFinset]
        exact List.mem_map_of_mem hrow
      have hsp := spans_vmk m bl.length 0
      simp only [Nat.zero_add] at hsp
      rw [hm] at h1
      refine ⟨by simp [hm], by simp [hm], Nat.pos_of_mul_pos_left h1, by simp [hbl], hlen, rfl, ?_⟩
      funext x
      simp only [hm]
      rw [hsp]
    · cases h

theorem rawSymmBlockVec_eq (blocks : List (List RawOp)) (m : ℕ) (x : List ℝ) : rawSymmBlockVec blocks m x =
    foldExcept (fun result (r : (ℕ × ℕ) × List RawOp) =>
      foldExcept (fun result (c : (ℕ × ℕ) × RawOp) => do
        let y ← c.2.vec (slice x c.1.1 c.1.2)
        plusSlice result r.1.1 r.1.2 y) ((spansFrom 0 (List.replicate blocks.length m)).zip r.2) result)
    ((spansFrom 0 (List.replicate blocks.length m)).zip blocks) (vmk x.length fun _ => 0) := by
  have hsp := spans_vmk m blocks.length 0
  simp only [Nat.zero_add] at hsp
  unfold rawSymmBlockVec
  simp only
  rw [hsp]

theorem replicate_map {γ : Type} (l : List γ) (m : ℕ) : List.replicate l.length m = l.map fun _ => m := by
  rw [List.map_const']

/-- the loops of `SymmSquareBlockMatrix.matvec` for a vector that is long enough: the first entries are the product, the rest is zero -/
theorem symmBlock_long {blocks : List (List RawOp)} {m : ℕ} (hb : ∀ row ∈ blocks, ∀ K ∈ row, K.Fits ∧ K.obj.rows = m ∧ K.obj.cols = m)
    (hl : ∀ row ∈ blocks, row.length = blocks.length) (x : List ℝ) (hx : blocks.length * m ≤ x.length) : rawSymmBlockVec blocks m x =
      .ok (((spansFrom 0 (List.replicate blocks.length m)).zip blocks).foldl (fun result r =>
          ((spansFrom 0 (List.replicate blocks.length m)).zip r.2).foldl (fun result c =>
            setSlice result r.1.1 (vadd (slice result r.1.1 r.1.2) (c.2.obj.matvec (slice x c.1.1 c.1.2)))) result) (vmk x.length fun _ => 0)) := by
  rw [rawSymmBlockVec_eq]
  refine (foldExcept_ok (g := fun result (r : (ℕ × ℕ) × List RawOp) => ((spansFrom 0 (List.replicate blocks.length m)).zip r.2).foldl (fun result c =>
            setSlice result r.1.1 (vadd (slice result r.1.1 r.1.2) (c.2.obj.matvec (slice x c.1.1 c.1.2)))) result) (fun s => s.length = x.length) _ _ (fun r hr s hs => ?_) (vmk_length _ _)).1
  rw [replicate_map] at hr
  obtain ⟨h1, h2, h3⟩ := spansFrom_zip _ _ _ r hr
  rw [← replicate_map, List.sum_replicate, smul_eq_mul, Nat.zero_add] at h2
  refine foldExcept_ok (g := fun result (c : (ℕ × ℕ) × RawOp) => setSlice result r.1.1 (vadd (slice result r.1.1 r.1.2) (c.2.obj.matvec (slice x c.1.1 c.1.2))))
    (fun s => s.length = x.length) _ _ (fun c hc s hs => ?_) hs
  rw [← hl _ h3, replicate_map] at hc
  obtain ⟨h4, h5, h6⟩ := spansFrom_zip _ _ _ c hc
  rw [← replicate_map, List.sum_replicate, smul_eq_mul, Nat.zero_add, hl _ h3] at h5
  obtain ⟨hF, hm1, hm2⟩ := hb _ h3 _ h6
  have hsl : (slice x c.1.1 c.1.2).length = c.2.obj.cols := by rw [slice_length (by omega)]; omega
  have hyl : (c.2.obj.matvec (slice x c.1.1 c.1.2)).length = m := by rw [hF.good.matvec_length hsl, hm1]
  have hvl : (vadd (slice s r.1.1 r.1.2) (c.2.obj.matvec (slice x c.1.1 c.1.2))).length = m := by
    rw [vadd_length, hyl, slice_length (by omega)]; omega
  refine ⟨?_, ?_⟩
  · rw [hF.vec _ hsl, ok_bind]
    exact plusSlice_ok (by omega) (by rw [hyl]; omega)
  · rw [setSlice_length (by rw [hvl]; omega)]; exact hs

theorem symmBlock_fits {blocks : List (List RawOp)} {m : ℕ} {r : RawOp} (hb : ∀ row ∈ blocks, ∀ K ∈ row, Built K.obj ∧ K.Fits)
    (hs : ∀ row ∈ blocks, ∀ K ∈ row, K.obj.rows = m ∧ K.obj.cols = m) (h : rawSymmBlock blocks = .ok r) : Built r.obj ∧ r.Fits ∧
    (∀ x : List ℝ, r.obj.cols ≤ x.length → r.vec x = .ok (r.obj.matvec (x.take r.obj.cols) ++ List.replicate (x.length - r.obj.cols) 0)) ∧
    ((∀ row ∈ blocks, ∀ K ∈ row, K.Strict) → ∀ x : List ℝ, x.length < r.obj.cols → Raises (r.vec x)) := by
  unfold rawSymmBlock at h
  obtain ⟨M, hM, h⟩ := bind_ok.1 h
  have hs' : ∀ row ∈ blocks.map fun row => row.map RawOp.obj, ∀ K ∈ row, K.rows = m ∧ K.cols = m := fun row hr K hK => by
    obtain ⟨row, hr', rfl⟩ := List.mem_map.1 hr
    obtain ⟨K, hK', rfl⟩ := List.mem_map.1 hK
    exact hs row hr' K hK'
  have hbM : Built M := Built.symmBlock (fun row hr K hK => by
    obtain ⟨row, hr', rfl⟩ := List.mem_map.1 hr
    obtain ⟨K, hK', rfl⟩ := List.mem_map.1 hK
    exact (hb row hr' K hK').1) hs' hM
  obtain ⟨hr, hc, hm0, hne, hlen, hmm, hmv⟩ := symmBlock_ok hs' hM
  rw [List.length_map] at hr hc
  have hlen : ∀ row ∈ blocks, row.length = blocks.length := fun row hr => by
    have := hlen _ (List.mem_map_of_mem hr)
    simpa using this
  have hne : blocks ≠ [] := fun h => hne (by rw [h]; rfl)
  have hrv : r = M.rawDefault (rawSymmBlockVec blocks m) := by
    clear hmv hmm hlen hM hs' hb hr hc
    rcases blocks with _ | ⟨_ | ⟨b00, r0⟩, rest⟩
    · cases h
    · cases h
    · rw [← (hs (b00 :: r0) (by simp) b00 (by simp)).1]
      exact (pure_ok.1 h).symm
  subst hrv
  have hlong : ∀ x : List ℝ, M.cols ≤ x.length → rawSymmBlockVec blocks m x = .ok (M.matvec (x.take M.cols) ++ List.replicate (x.length - M.cols) 0) := fun x hx => by
    rw [symmBlock_long (fun row hr K hK => ⟨(hb row hr K hK).2, hs row hr K hK⟩) hlen x (by rw [← hc]; exact hx), hmv]
    refine congrArg Except.ok ?_
    simp only [List.length_map]
    rw [zip_map_right', List.foldl_map]
    have hz : (vmk x.length fun _ => (0 : ℝ)) = (vmk (x.take M.cols).length fun _ => (0 : ℝ)) ++ List.replicate (x.length - M.cols) 0 := by
      unfold vmk
      rw [List.map_const', List.map_const', List.length_range, List.length_range, List.length_take, min_eq_left hx, ← List.replicate_add]
      congr 1; omega
    rw [hz]
    refine (foldl_append_state _ (fun s => s.length = M.cols) _ _ (fun r hr s hs' => ?_) (by simp [hx])).1
    rw [replicate_map] at hr
    obtain ⟨h1, h2, h3⟩ := spansFrom_zip _ _ _ r hr
    rw [← replicate_map, List.sum_replicate, smul_eq_mul, Nat.zero_add, ← hc] at h2
    rw [zip_map_right', List.foldl_map]
    refine foldl_append_state _ (fun s => s.length = M.cols) _ _ (fun c hc' s hs' => ?_) hs'
    rw [← hlen _ h3, replicate_map] at hc'
    obtain ⟨h4, h5, h6⟩ := spansFrom_zip _ _ _ c hc'
    rw [← replicate_map, List.sum_replicate, smul_eq_mul, Nat.zero_add, hlen _ h3, ← hc] at h5
    obtain ⟨hm1, hm2⟩ := hs _ h3 _ h6
    have hF := (hb _ h3 _ h6).2
    have hsl : (slice x c.1.1 c.1.2).length = c.2.obj.cols := by rw [slice_length (by omega)]; omega
    have hyl : (c.2.obj.matvec (slice x c.1.1 c.1.2)).length = m := by rw [hF.good.matvec_length hsl, hm1]
    have hvl : (vadd (slice s r.1.1 r.1.2) (c.2.obj.matvec (slice x c.1.1 c.1.2))).length = m := by
      rw [vadd_length, hyl, slice_length (by omega)]; omega
    simp only
    rw [slice_take h5]
    refine ⟨?_, ?_⟩
    · rw [slice_append (by omega), setSlice_append (by rw [hvl]; omega)]
    · rw [setSlice_length (by rw [hvl]; omega)]; exact hs'
  refine ⟨hbM, Fits.ofDefault hbM.good hmm fun x hx => ?_, hlong, fun hS x hx => ?_⟩
  · rw [hlong x hx.ge, List.take_of_length_le hx.le, hx]
    simp
  · have hx : x.length < M.cols := hx
    show Raises (rawSymmBlockVec blocks m x)
    rw [rawSymmBlockVec_eq]
    obtain ⟨t, ht, -⟩ := spansFrom_last (fun _ : List RawOp => m) (fun _ : List RawOp => m) blocks 0 0 hne
    obtain ⟨row, rest, rfl⟩ := List.exists_cons_of_ne_nil hne
    have hrow := hlen row (by simp)
    have hrn : row ≠ [] := fun h => by rw [h] at hrow; simp at hrow
    obtain ⟨c, hc1, hc2⟩ := spansFrom_last (fun _ : RawOp => m) (fun _ : RawOp => m) row 0 0 hrn
    have hmem := (List.of_mem_zip (show ((c.1), c.2) ∈ _ from hc1)).2
    rw [← replicate_map, List.sum_replicate, smul_eq_mul, Nat.zero_add, hrow, ← hc] at hc2
    have hmem' := hmem
    obtain ⟨h4, -, h6⟩ := spansFrom_zip _ _ _ c.2 hmem
    refine foldExcept_raises (a := ((0, 0 + m), row)) (fun s => ?_) _ _ (by
      rw [List.length_cons, List.replicate_succ, spansFrom, List.zip_cons_cons]; simp)
    refine foldExcept_raises (a := c.2) (fun s => raises_bind _ ((hS row (by simp) _ h6).vec _ ?_)) _ _ (by
      rw [← hrow, replicate_map]; exact hmem')
    rw [(hs row (by simp) _ h6).2]
    unfold slice
    rw [List.length_take, List.length_drop]
    omega

/-! ### all operators -/

/-- every operator represents its documented matrix -/
theorem RawBuilt.fits {r : RawOp} (h : RawBuilt r) : Built r.obj ∧ r.Fits := by
  induction h with
  | wrap A hA h => exact wrap_fits A hA h
  | dense hw h => exact ⟨(dense_fits hw h).1, (dense_fits hw h).2.1⟩
  | identity h => exact ⟨(identity_fits h).1, (identity_fits h).2.1⟩
  | diag hw h => exact ⟨(diag_fits hw h).1, (diag_fits hw h).2.1⟩
  | toeplitz hw h => exact ⟨(toeplitz_fits hw h).1, (toeplitz_fits hw h).2.1⟩
  | bttb hw h => exact ⟨(bttb_fits hw h).1, (bttb_fits hw h).2.1⟩
  | blockDiag _ h ih => exact ⟨(blockDiag_fits ih h).1, (blockDiag_fits ih h).2.1⟩
  | symmBlock _ hs h ih => exact ⟨(symmBlock_fits ih hs h).1, (symmBlock_fits ih hs h).2.1⟩
  | sum _ h ih => exact ⟨(sum_fits ih h).1, (sum_fits ih h).2.1⟩
  | composition _ hs h ih => exact ⟨(composition_fits ih hs h).1, (composition_fits ih hs h).2.1⟩
  | kronecker _ _ h iA iB => exact ⟨(kron_fits iA iB h).1, (kron_fits iA iB h).2.1⟩
  | ski _ hr hc h ih => exact ⟨(ski_fits ih hr hc h).1, (ski_fits ih hr hc h).2.1⟩

theorem exists_raws {l : List MatObj} (h : ∀ K ∈ l, ∃ r, RawBuilt r ∧ r.obj = K) : ∃ rs : List RawOp, rs.map RawOp.obj = l ∧ ∀ r ∈ rs, RawBuilt r := by
  induction l with
  | nil => exact ⟨[], rfl, by simp⟩
  | cons K l ih =>
    obtain ⟨r, hr, e⟩ := h K (by simp)
    obtain ⟨rs, es, hrs⟩ := ih fun L hL => h L (by simp [hL])
    exact ⟨r :: rs, by simp [e, es], fun L hL => by
      rcases List.mem_cons.1 hL with rfl | hL
      · exact hr
      · exact hrs L hL⟩

theorem exists_raws2 {l : List (List MatObj)} (h : ∀ row ∈ l, ∀ K ∈ row, ∃ r, RawBuilt r ∧ r.obj = K) :
    ∃ rs : List (List RawOp), rs.map (fun row => row.map RawOp.obj) = l ∧ ∀ row ∈ rs, ∀ r ∈ row, RawBuilt r := by
  induction l with
  | nil => exact ⟨[], rfl, by simp⟩
  | cons K l ih =>
    obtain ⟨r, e, hr⟩ := exists_raws (h K (by simp))
    obtain ⟨rs, es, hrs⟩ := ih fun L hL => h L (by simp [hL])
    exact ⟨r :: rs, by simp [e, es], fun row hrow => by
      rcases List.mem_cons.1 hrow with rfl | hrow
      · exact hr
      · exact hrs row hrow⟩

theorem bind_pure_ok {α β : Type} {x : Except PyErr α} {a : α} (f : α → β) (h : x = .ok a) : (x >>= fun a => pure (f a)) = Except.ok (f a) := by
  rw [h]; rfl

/-- no operator is left out -/
theorem Built.exists_raw {M : MatObj} (h : Built M) : ∃ r, RawBuilt r ∧ r.obj = M := by
  induction h with
  | @wrap n m mvm M A hA h => exact ⟨M.rawDefault fun x => .ok (mvm x), RawBuilt.wrap (mvm := fun x => .ok (mvm x)) A (fun x => by rw [hA]) (by
      unfold rawWrap
      exact bind_pure_ok (fun M : MatObj => M.rawDefault fun x => .ok (mvm x)) h), rfl⟩
  | dense hw h => exact ⟨_, RawBuilt.dense hw (by unfold rawDense; rw [h]; rfl), rfl⟩
  | identity h => exact ⟨_, RawBuilt.identity (by unfold rawIdentity; rw [h]; rfl), rfl⟩
  | diag hw h => exact ⟨_, RawBuilt.diag hw (by unfold rawDiag; rw [h]; rfl), rfl⟩
  | toeplitz hw h => exact ⟨_, RawBuilt.toeplitz hw (by unfold rawToeplitz; rw [h]; rfl), rfl⟩
  | bttb hw h => exact ⟨_, RawBuilt.bttb hw (by unfold rawBttb; rw [h]; rfl), rfl⟩
  | blockDiag _ h ih =>
    obtain ⟨rs, rfl, hrs⟩ := exists_raws ih
    exact ⟨_, RawBuilt.blockDiag hrs (by unfold rawBlockDiag; rw [h]; rfl), rfl⟩
  | @symmBlock blocks m M _ hs h ih =>
    obtain ⟨rs, rfl, hrs⟩ := exists_raws2 ih
    have hs' : ∀ row ∈ rs, ∀ K ∈ row, K.obj.rows = m ∧ K.obj.cols = m := fun row hr K hK => hs _ (List.mem_map_of_mem hr) _ (List.mem_map_of_mem hK)
    obtain ⟨-, -, -, hne, hlen, -⟩ := symmBlock_ok hs h
    rcases rs with _ | ⟨_ | ⟨b00, r0⟩, rest⟩
    · exact absurd rfl hne
    · have := hlen [] (by simp)
      simp at this
    · exact ⟨_, RawBuilt.symmBlock hrs hs' (by unfold rawSymmBlock; rw [h]; rfl), rfl⟩
  | sum _ h ih =>
    obtain ⟨rs, rfl, hrs⟩ := exists_raws ih
    exact ⟨_, RawBuilt.sum hrs (by unfold rawSum; rw [h]; rfl), rfl⟩
  | composition _ hs h ih =>
    obtain ⟨rs, rfl, hrs⟩ := exists_raws ih
    exact ⟨_, RawBuilt.composition hrs ((List.isChain_map RawOp.obj).1 hs) (by unfold rawComposition; rw [h]; rfl), rfl⟩
  | kronecker _ _ h iA iB =>
    obtain ⟨A, hA, rfl⟩ := iA
    obtain ⟨B, hB, rfl⟩ := iB
    exact ⟨_, RawBuilt.kronecker hA hB (by unfold rawKron; rw [h]; rfl), rfl⟩
  | @ski K W M _ hr hc h ih =>
    obtain ⟨K, hK, rfl⟩ := ih
    have h' := h
    unfold skiNew at h'
    obtain ⟨w', hw', h'⟩ := bind_ok.1 h'
    obtain ⟨wt', hwt', h'⟩ := bind_ok.1 h'
    obtain ⟨c', hc', h'⟩ := bind_ok.1 h'
    have h1 := (wrapNew_ok hw')
    have h2 := (wrapNew_ok hwt')
    obtain ⟨v, hv⟩ : ∃ v, wrapNew W.rows W.cols (fun x => (csrDot W x).toOption.getD []) = .ok v := by
      unfold wrapNew at hw' ⊢
      obtain ⟨a, ha, -⟩ := bind_ok.1 hw'
      rw [ha]; exact ⟨_, rfl⟩
    obtain ⟨vt, hvt⟩ : ∃ v, wrapNew W.T.rows W.T.cols (fun x => (csrDot W.T x).toOption.getD []) = .ok v := by
      unfold wrapNew at hwt' ⊢
      obtain ⟨a, ha, -⟩ := bind_ok.1 hwt'
      rw [ha]; exact ⟨_, rfl⟩
    have h3 := wrapNew_ok hv
    have h4 := wrapNew_ok hvt
    obtain ⟨d, hd⟩ : ∃ d, compositionNew [v, K.obj, vt] = .ok d := by
      show ∃ d, (matrixInit v.rows vt.cols >>= fun _ => _) = Except.ok d
      rw [show matrixInit v.rows vt.cols = .ok () from matrixInit_ok.2 (by rw [h3.2.2.1, h4.2.2.2.1]; exact ⟨h1.1, h2.2.1⟩)]
      exact ⟨_, rfl⟩
    refine ⟨⟨M, foldExcept (fun x K => K.vec x) [v.rawDefault (csrDot W), K, vt.rawDefault (csrDot W.T)].reverse,
      foldExcept (fun X K => K.mat X) [v.rawDefault (csrDot W), K, vt.rawDefault (csrDot W.T)].reverse⟩, RawBuilt.ski hK hr hc ?_, rfl⟩
    · unfold rawSki rawWrap
      rw [h, ok_bind, hv, ok_bind, pure_bind, hvt, ok_bind, pure_bind]
      unfold rawComposition
      show (compositionNew [v, K.obj, vt] >>= _) >>= _ = _
      rw [hd]
      rfl

end Verif
