import Verif.Model.Work
import Verif.Proofs.GridKernel

/-! Prices are an annotation: without them the operators are those of `Model/GridKernel`. -/

namespace Verif

theorem erase_bind {α β α' β' : Type} {x : Except PyErr α} {x' : Except PyErr α'} {f : α → Except PyErr β} {f' : α' → Except PyErr β'} {u : α → α'} {v : β → β'}
    (hx : x.map u = x') (hf : ∀ a, (f a).map v = f' (u a)) : (x >>= f).map v = x' >>= f' := by
  subst hx
  cases x with
  | error e => rfl
  | ok a => exact hf a

theorem erase_same {α β β' : Type} {x : Except PyErr α} {f : α → Except PyErr β} {f' : α → Except PyErr β'} {v : β → β'}
    (hf : ∀ a, (f a).map v = f' a) : (x >>= f).map v = x >>= f' := by
  cases x with
  | error e => rfl
  | ok a => exact hf a

theorem erase_pure {x : Except PyErr MatObj} {f : MatObj → Priced} (hf : ∀ M, (f M).obj = M) : (x >>= fun M => pure (f M)).map Priced.obj = x := by
  cases x with
  | error e => rfl
  | ok a => exact congrArg Except.ok (hf a)

theorem erase_mapExcept {α α' β β' : Type} {f : α → Except PyErr β} {f' : α' → Except PyErr β'} {u : α → α'} {v : β → β'} (hf : ∀ a, (f a).map v = f' (u a)) :
    ∀ l : List α, (mapExcept f l).map (List.map v) = mapExcept f' (l.map u)
  | [] => rfl
  | a :: l => erase_bind (hf a) fun b => erase_bind (erase_mapExcept hf l) fun bs => rfl

theorem erase_seqAll {β β' : Type} {v : β → β'} : ∀ l : List (Except PyErr β), (seqAll l).map (List.map v) = seqAll (l.map (Except.map v))
  | [] => rfl
  | a :: l => erase_bind rfl fun b => erase_bind (erase_seqAll l) fun bs => rfl

theorem foldl_rel {α β γ : Type*} {R : β → γ → Prop} {f : β → α → β} {g : γ → α → γ} (h : ∀ b c a, R b c → R (f b a) (g c a)) : ∀ (l : List α) (b : β) (c : γ),
    R b c → R (l.foldl f b) (l.foldl g c)
  | [], _, _, hr => hr
  | a :: l, b, c, hr => foldl_rel h l _ _ (h b c a hr)

theorem map_symm2d {α β γ : Type*} (g : β → γ) (f : α → β) (arr : ℕ → ℕ → α) (D : ℕ) (e : ℕ → ℕ → β) : ∀ i j,
    g (symm2dListMap f arr D e i j) = symm2dListMap (fun x => g (f x)) arr D (fun a b => g (e a b)) i j := by
  unfold symm2dListMap
  refine foldl_rel (R := fun (o : ℕ → ℕ → β) (o' : ℕ → ℕ → γ) => ∀ i j, g (o i j) = o' i j) (fun o o' i h => ?_) _ _ _ fun i j => rfl
  refine foldl_rel (R := fun (o : ℕ → ℕ → β) (o' : ℕ → ℕ → γ) => ∀ i j, g (o i j) = o' i j) (fun o o' j h => ?_) _ _ _ h
  intro a b
  simp only []
  split_ifs <;> first | rfl | exact h _ _

theorem map_npRepeat {α β : Type*} (g : α → β) : ∀ (l : List α) (c : List ℕ), (npRepeat l c).map g = npRepeat (l.map g) c
  | [], c => by simp [npRepeat]
  | a :: l, [] => by simp [npRepeat]
  | a :: l, k :: c => by
    have := map_npRepeat g l c
    simp only [npRepeat] at this
    simp [npRepeat, this]

variable (p : Prices)

theorem erase_numpyMatrix (A : Arr2 ℝ) : (p.numpyMatrix A).map Priced.obj = numpyMatrix2 A := erase_pure fun _ => rfl

theorem erase_identity (n : ℕ) : (pricedIdentity n).map Priced.obj = identityNew n := erase_pure fun _ => rfl

theorem erase_diag (v : List ℝ) : (p.diag v).map Priced.obj = diagNew (.vec v) := erase_pure fun _ => rfl

theorem erase_bttb (sizes : List ℕ) (top : List ℝ) : (p.bttb sizes top).map Priced.obj = gridBttb sizes top := erase_pure fun _ => rfl

theorem erase_blockDiag (l : List Priced) : (pricedBlockDiag l).map Priced.obj = blockDiagNew (l.map Priced.obj) := erase_pure fun _ => rfl

theorem erase_symmSquareBlock (l : List (List Priced)) : (p.symmSquareBlock l).map Priced.obj = symmSquareBlockNew (l.map (·.map Priced.obj)) := erase_pure fun _ => rfl

theorem erase_sumMatrix (l : List Priced) : (p.sumMatrix l).map Priced.obj = sumMatrixNew (l.map Priced.obj) := erase_pure fun _ => rfl

theorem erase_composition (l : List Priced) : (pricedComposition l).map Priced.obj = compositionNew (l.map Priced.obj) := erase_pure fun _ => rfl

theorem erase_kronecker (A B : Priced) : (pricedKronecker A B).map Priced.obj = kroneckerNew A.obj B.obj := erase_pure fun _ => rfl

theorem erase_ski (K : Priced) (W WT : Arr2 ℝ) (s : ℕ) : (p.ski K W WT s).map Priced.obj = skiNew K.obj W WT := erase_pure fun _ => rfl

theorem erase_kronOf (AK : Arr2 ℝ × Priced) : (p.kronOf AK).map Priced.obj = kronOf (AK.1, AK.2.obj) :=
  erase_bind (erase_numpyMatrix p _) fun _ => erase_kronecker _ _

theorem erase_genSumGrid (fk : FK) (tops : List (List ℝ)) (sizes ad : List ℕ) : (p.genSumGrid fk tops sizes ad).map Priced.obj = genSumGrid fk tops sizes ad := by
  refine erase_bind (u := List.map Priced.obj) (by simpa using erase_mapExcept (u := id) (erase_bttb p sizes) tops) fun ks => erase_same fun mats => ?_
  refine erase_bind (u := List.map Priced.obj) ?_ fun l => erase_sumMatrix p l
  rw [erase_mapExcept (u := Prod.map id Priced.obj) (f' := kronOf) (erase_kronOf p)]
  congr 1
  rw [List.zip_map_right]

theorem erase_ofExcept {e : Except PyErr Priced} {e' : Except PyErr MatObj} (h : e.map Priced.obj = e') : (Priced.ofExcept e).obj = MatObj.ofExcept e' := by
  subst h
  cases e <;> rfl

theorem erase_genBtGrid (fk : FK) (tops : List (List ℝ)) (sizes ad : List ℕ) : (p.genBtGrid fk tops sizes ad).map Priced.obj = genBtGrid fk tops sizes ad := by
  refine erase_same fun Bs => erase_bind (u := List.map Priced.obj) ?_ fun _ => ?_
  · rw [erase_seqAll, List.map_flatMap]
    congr 1
    refine List.flatMap_congr fun i _ => ?_
    rw [List.map_map]
    exact List.map_congr_left fun j _ => erase_bttb p _ _
  · rw [erase_symmSquareBlock]
    congr 1
    have h : ∀ i j, (symm2dListMap (fun top => Priced.ofExcept (p.bttb sizes top)) (tensorTop Bs tops sizes.prod) fk.D
        (fun _ _ => Priced.ofExcept (.error .attributeError)) i j).obj = symm2dListMap (fun top => MatObj.ofExcept (gridBttb sizes top)) (tensorTop Bs tops sizes.prod) fk.D
        (fun _ _ => MatObj.ofExcept (.error .attributeError)) i j := by
      intro i j
      rw [map_symm2d Priced.obj]
      congr 1
      · funext top
        exact erase_ofExcept (erase_bttb p _ _)
    simp only [vmk, List.map_map, Function.comp_def, h]

theorem erase_genCoregKs (fk : FK) (tops : List (List ℝ)) (sizes : List ℕ) (m : ℕ) (ad : List ℕ) : (p.genCoregKs fk tops sizes m ad).map Priced.obj = genCoregKs fk tops sizes m ad := by
  refine erase_same fun kidxs => ?_
  simp only []
  split_ifs
  · exact erase_identity m
  · refine erase_bind (erase_identity _) fun Im => erase_bind (erase_numpyMatrix p _) fun a => erase_bind (erase_kronecker _ _) fun left =>
      erase_bind (erase_numpyMatrix p _) fun a' => erase_bind (erase_kronecker _ _) fun right =>
      erase_bind (u := List.map Priced.obj) (by simpa using erase_mapExcept (u := id) (erase_bttb p sizes) _) fun ks => erase_bind (u := Priced.obj) ?_ fun t => erase_composition _
    rw [erase_blockDiag]
    congr 1
    exact map_npRepeat _ _ _

theorem erase_genDiagKs (fk : FK) (tops : List (List ℝ)) (sizes : List ℕ) (m : ℕ) (ad : List ℕ) : (p.genDiagKs fk tops sizes m ad).map Priced.obj = genDiagKs fk tops sizes m ad := by
  refine erase_same fun nl => erase_same fun ni => ?_
  split_ifs
  · exact erase_identity m
  · refine erase_same fun kidxs => ?_
    split_ifs
    · rfl
    · exact erase_bind (u := List.map Priced.obj) (by simpa using erase_mapExcept (u := id) (erase_bttb p sizes) _) fun ks => erase_blockDiag ks

theorem erase_genGridK (fk : FK) (tops : List (List ℝ)) (sizes : List ℕ) (m : ℕ) (kt : KType) (ad : List ℕ) :
    (p.genGridK fk tops sizes m kt ad).map Priced.obj = genGridK fk tops sizes m kt ad := by
  cases kt with
  | sum => exact erase_genSumGrid p fk tops sizes ad
  | bt => exact erase_genBtGrid p fk tops sizes ad
  | slfm => exact erase_bind (erase_genCoregKs p fk tops sizes m ad) fun a => erase_bind (erase_genDiagKs p fk tops sizes m ad) fun b => erase_sumMatrix p [a, b]

theorem erase_gridKernelFor (fk : FK) (dists : List (List ℕ × NDArr ℝ)) (interp : List (List ℕ × (Arr2 ℝ × Arr2 ℝ))) (stored : List ℕ → ℕ) (ad : List ℕ) :
    (p.gridKernelFor fk dists interp stored ad).map Priced.obj = (gridKernelFor fk dists interp ad).map GridKernelObj.obj := by
  unfold Prices.gridKernelFor gridKernelFor
  cases chooseKType fk ad with
  | error e => rfl
  | ok kt =>
    cases dictIdx dists ad with
    | error e => rfl
    | ok d =>
      cases dictIdx interp ad with
      | error e => rfl
      | ok WW =>
        simp only [ok_bind]
        unfold Prices.gridKernelNew gridKernelNew
        cases matrixInit WW.1.rows WW.1.rows with
        | error e => rfl
        | ok _ =>
          cases fk.evalKernelsFixedDim (.arr d) ad with
          | error e => rfl
          | ok vals =>
            simp only [ok_bind]
            cases stackTops vals with
            | error e => rfl
            | ok ts =>
              simp only [ok_bind]
              rw [← erase_genGridK p]
              cases p.genGridK fk ts.1 ts.2 WW.1.cols kt ad with
              | error e => rfl
              | ok K =>
                show Except.map _ (p.ski K WW.1 WW.2 (stored ad) >>= _) = Except.map _ (skiNew K.obj WW.1 WW.2 >>= _)
                rw [← erase_ski p K WW.1 WW.2 (stored ad)]
                cases p.ski K WW.1 WW.2 (stored ad) <;> rfl

/-- Leaving the prices away gives the function of `Model/GridKernel`. -/
theorem erase_genGridKernel (fk : FK) (dists : List (List ℕ × NDArr ℝ)) (interp : List (List ℕ × (Arr2 ℝ × Arr2 ℝ))) (stored : List ℕ → ℕ) (lens : List ℕ) :
    (p.genGridKernel fk dists interp stored lens).map Priced.obj = (genGridKernel fk dists interp lens).map Prod.fst := by
  unfold Prices.genGridKernel genGridKernel
  have h : (mapExcept (p.gridKernelFor fk dists interp stored) (fk.activeDims.map Prod.fst)).map (List.map Priced.obj) =
      (mapExcept (gridKernelFor fk dists interp) (fk.activeDims.map Prod.fst)).map (List.map GridKernelObj.obj) := by
    have h1 := erase_mapExcept (u := id) (f' := fun ad => (gridKernelFor fk dists interp ad).map GridKernelObj.obj) (erase_gridKernelFor p fk dists interp stored) (fk.activeDims.map Prod.fst)
    have h2 := erase_mapExcept (u := id) (f := gridKernelFor fk dists interp) (v := GridKernelObj.obj)
      (f' := fun ad => (gridKernelFor fk dists interp ad).map GridKernelObj.obj) (fun _ => rfl) (fk.activeDims.map Prod.fst)
    rw [h1, h2]
  cases h1 : mapExcept (p.gridKernelFor fk dists interp stored) (fk.activeDims.map Prod.fst) with
  | error e =>
    rw [h1] at h
    cases h2 : mapExcept (gridKernelFor fk dists interp) (fk.activeDims.map Prod.fst) with
    | error e' =>
      rw [h2] at h
      cases h
      simp only [h2]
      rfl
    | ok l => rw [h2] at h; cases h
  | ok gks =>
    rw [h1] at h
    cases h2 : mapExcept (gridKernelFor fk dists interp) (fk.activeDims.map Prod.fst) with
    | error e' => rw [h2] at h; cases h
    | ok l =>
      rw [h2] at h
      have hl : gks.map Priced.obj = l.map GridKernelObj.obj := Except.ok.inj h
      simp only [h2, ok_bind]
      rw [← erase_diag p]
      cases p.diag (npRepeat fk.noise lens) with
      | error e => rfl
      | ok N =>
        show Except.map Priced.obj (p.sumMatrix (gks ++ [N])) = Except.map Prod.fst (sumMatrixNew (l.map GridKernelObj.obj ++ [N.obj]) >>= _)
        rw [erase_sumMatrix, List.map_append, hl]
        show sumMatrixNew (l.map GridKernelObj.obj ++ [N.obj]) = _
        cases sumMatrixNew (l.map GridKernelObj.obj ++ [N.obj]) <;> rfl

end Verif
