import Verif.Model.BenchFigures
import Verif.Spec.BenchFigures
import Verif.Proofs.ApproxGrad
import Verif.Proofs.Relabelled

/-! C121: the tables of the benchmarks -/

namespace Verif

theorem joinChars_eq (sep : List Char) : ∀ l : List (List Char), joinChars sep l = List.intercalate sep l
  | [] => by simp [joinChars, List.intercalate]
  | [x] => by simp [joinChars, List.intercalate]
  | x :: y :: l => by
    rw [joinChars, joinChars_eq sep (y :: l)]
    simp [List.intercalate, List.intersperse]

theorem splitChar_plain (c : Char) : ∀ p : List Char, c ∉ p → splitChar c p = [p]
  | [], _ => rfl
  | x :: p, h => by
    rw [List.mem_cons, not_or] at h
    rw [splitChar, if_neg (fun e => h.1 e.symm), splitChar_plain c p h.2]

theorem splitChar_cut (c : Char) (rest : List Char) : ∀ p : List Char, c ∉ p → splitChar c (p ++ c :: rest) = p :: splitChar c rest
  | [], _ => by simp [splitChar]
  | x :: p, h => by
    rw [List.mem_cons, not_or] at h
    rw [List.cons_append, splitChar, if_neg (fun e => h.1 e.symm), splitChar_cut c rest p h.2]

/-- the text of the best entry is split into its four parts again -/
theorem boldface_cell {m s : List Char} (hm : m ≠ []) (hm' : '$' ∉ m) (hs : s ≠ []) (hs' : '$' ∉ s) : boldface (cellText m s) = .ok (boldText m s) := by
  have e : cellText m s = [] ++ '$' :: (m ++ '$' :: ([' ', '('] ++ '$' :: (s ++ '$' :: [')']))) := by
    unfold cellText; simp
  have h : splitChar '$' (cellText m s) = [[], m, [' ', '('], s, [')']] := by
    rw [e, splitChar_cut _ _ _ (by simp), splitChar_cut _ _ _ hm', splitChar_cut _ _ _ (by simp), splitChar_cut _ _ _ hs', splitChar_plain _ _ (by simp)]
  unfold boldface
  rw [h]
  have hf : ([[], m, [' ', '('], s, [')']] : List (List Char)).filter (· ≠ []) = [m, [' ', '('], s, [')']] := by
    simp [List.filter, hm, hs]
  rw [hf]
  unfold boldText
  simp

theorem statprint_cell (F : NumText) (fmt : String) (m s : Option ℝ) : statprint F [m, s] fmt "$".toList = .ok (cellText (F fmt m) (F fmt s)) := by
  unfold statprint cellText; simp

theorem minKey_emphasised {n : ℕ} (hn : 1 ≤ n) (key : ℕ → Option ℝ) : ∃ b, minKey (vmk n key) = .ok b ∧ Emphasised n key b := by
  have hk : ∀ i < n, (vmk n key).getD i none = key i := fun i hi => by
    unfold vmk; simp [List.getD, hi]
  have hne : vmk n key ≠ [] := fun h => by have := congrArg List.length h; rw [vmk_length] at this; simp at this; omega
  have inv : ∀ k, 1 ≤ k → k ≤ n → Emphasised k key ((List.range k).foldl (minStep (vmk n key)) 0) := by
    intro k hk1
    induction k, hk1 using Nat.le_induction with
    | base =>
      intro h
      have : (List.range 1).foldl (minStep (vmk n key)) 0 = 0 := by simp [List.range_succ, minStep]
      rw [this]
      refine ⟨by omega, ?_⟩
      cases h0 : key 0 with
      | none => exact Or.inl ⟨rfl, rfl⟩
      | some x =>
        refine Or.inr ⟨by simp, x, rfl, ?_⟩
        intro i hi y hy
        obtain rfl : i = 0 := by omega
        rw [h0] at hy
        obtain rfl := Option.some.inj hy
        exact ⟨le_refl _, fun h => absurd h (by omega)⟩
    | succ k hk1 ih =>
      intro h
      obtain ⟨hb, hcase⟩ := ih (by omega)
      rw [List.range_succ, List.foldl_append]
      set b := (List.range k).foldl (minStep (vmk n key)) 0 with hbd
      show Emphasised (k + 1) key (minStep (vmk n key) b k)
      unfold minStep
      rw [hk k (by omega), hk b (by omega)]
      rcases hcase with ⟨h0, hb0⟩ | ⟨h0, x, hx, hall⟩
      · rw [hb0, h0]
        have : floatLt (key k) none = false := by cases key k <;> rfl
        rw [this]
        exact ⟨by simp, Or.inl ⟨h0, by simp⟩⟩
      · rw [hx]
        cases hy : key k with
        | none =>
          have : floatLt none (some x) = false := rfl
          rw [this]
          refine ⟨by simp; omega, Or.inr ⟨h0, x, by simpa using hx, ?_⟩⟩
          intro i hi y hy'
          have hik : i ≠ k := fun e => by rw [e, hy] at hy'; cases hy'
          simpa using hall i (by omega) y hy'
        | some y =>
          by_cases hlt : y < x
          · have : floatLt (some y) (some x) = true := by simp [floatLt, hlt]
            rw [this]
            refine ⟨by simp, Or.inr ⟨h0, y, by simpa using hy, ?_⟩⟩
            intro i hi z hz
            rcases Nat.lt_succ_iff_lt_or_eq.1 hi with hi | rfl
            · have := (hall i hi z hz).1
              exact ⟨(hlt.trans_le this).le, fun _ => hlt.trans_le this⟩
            · rw [hy] at hz
              obtain rfl := Option.some.inj hz
              exact ⟨le_refl _, fun h => absurd h (by simp)⟩
          · have : floatLt (some y) (some x) = false := by simp [floatLt]; exact not_lt.1 hlt
            rw [this]
            refine ⟨by simp; omega, Or.inr ⟨h0, x, by simpa using hx, ?_⟩⟩
            intro i hi z hz
            rcases Nat.lt_succ_iff_lt_or_eq.1 hi with hi | rfl
            · simpa using hall i hi z hz
            · rw [hy] at hz
              obtain rfl := Option.some.inj hz
              exact ⟨not_lt.1 hlt, fun h => by simp at h; omega⟩
  refine ⟨_, ?_, inv n hn (le_refl _)⟩
  unfold minKey
  rw [if_neg hne, vmk_length]

theorem mapExcept_of_vmk {α β : Type} {f : α → Except PyErr β} {n : ℕ} {g : ℕ → α} {r : ℕ → β} (h : ∀ i < n, f (g i) = .ok (r i)) : mapExcept f (vmk n g) = .ok (vmk n r) := by
  have := mapExcept_vmk (f := fun i => f (g i)) h
  rw [← this]
  unfold vmk
  induction (List.range n) with
  | nil => rfl
  | cons i l ih => rw [List.map_cons, mapExcept, mapExcept, ih]

theorem intOf_some (x : ℝ) : intOf (some x) = .ok (some (towardZero x)) := by
  show Except.ok (some (if 0 ≤ x then (⌊x⌋ : ℝ) else (⌈x⌉ : ℝ))) = _
  unfold towardZero
  by_cases h : 0 ≤ x
  · rw [if_pos h, if_neg (not_lt.2 h)]
  · rw [if_neg h, if_pos (not_le.1 h), Int.floor_neg]; push_cast; simp

/-- one row: `val` are the numbers of each column before and `out` after they are converted -/
theorem row_text (F : NumText) (hF : ∀ fmt x, F fmt x ≠ [] ∧ '$' ∉ F fmt x) (metric fmt : String) {n : ℕ} (hn : 1 ≤ n) (val out : ℕ → Option ℝ × Option ℝ)
    (hconv : ∀ c < n, if fmt = "d" then (intOf (val c).1 = .ok (out c).1 ∧ intOf (val c).2 = .ok (out c).2) else out c = val c) :
    ∃ b, Emphasised n (fun c => (val c).1) b ∧
      tableRow F metric fmt (vmk n fun c => [(val c).1, (val c).2]) = .ok (rowText metric n (fun c => (F fmt (out c).1, F fmt (out c).2)) b) := by
  obtain ⟨b, hb, hemp⟩ := minKey_emphasised hn fun c => (val c).1
  refine ⟨b, hemp, ?_⟩
  have h1 : mapExcept firstOf (vmk n fun c => [(val c).1, (val c).2]) =
      .ok (vmk n fun c => (val c).1) := mapExcept_of_vmk fun i _ => rfl
  have h2 : converted fmt (vmk n fun c => [(val c).1, (val c).2]) =
      .ok (vmk n fun c => [(out c).1, (out c).2]) := by
    unfold converted
    by_cases hd : fmt = "d"
    · rw [if_pos hd]
      refine mapExcept_of_vmk fun c hc => ?_
      have := hconv c hc
      rw [if_pos hd] at this
      simp only [mapExcept, this.1, this.2]
      rfl
    · rw [if_neg hd]
      congr 1
      refine List.map_congr_left fun c hc => ?_
      have := hconv c (List.mem_range.1 hc)
      rw [if_neg hd] at this
      rw [this]
  have h3 : mapExcept (fun x => statprint F x fmt "$".toList) (vmk n fun c => [(out c).1, (out c).2]) = .ok (vmk n fun c => cellText (F fmt (out c).1) (F fmt (out c).2)) :=
    mapExcept_of_vmk fun c _ => statprint_cell F fmt _ _
  have h4 : (vmk n fun c => cellText (F fmt (out c).1) (F fmt (out c).2)).getD b [] = cellText (F fmt (out b).1) (F fmt (out b).2) := by
    unfold vmk; simp [List.getD, hemp.1]
  have h5 := boldface_cell (hF fmt (out b).1).1 (hF fmt (out b).1).2 (hF fmt (out b).2).1 (hF fmt (out b).2).2
  have h6 : (vmk n fun c => cellText (F fmt (out c).1) (F fmt (out c).2)).set b (boldText (F fmt (out b).1) (F fmt (out b).2)) =
      (List.range n).map fun c => if c = b then boldText (F fmt (out c).1) (F fmt (out c).2) else cellText (F fmt (out c).1) (F fmt (out c).2) := by
    refine List.ext_getElem (by simp [vmk]) fun i hi hi' => ?_
    rw [List.getElem_set]
    by_cases hib : b = i
    · subst hib; simp
    · rw [if_neg hib]; simp [vmk, Ne.symm hib]
  unfold tableRow rowText
  simp only [h1, hb, h2, h3, h4, h5, bind, Except.bind, pure, Except.pure]
  rw [h6, joinChars_eq]

theorem zipStar_vmk {n k : ℕ} (hn : 1 ≤ n) (f : ℕ → ℕ → List (Option ℝ)) : zipStar (vmk n fun c => vmk k (f c)) = vmk k fun m => vmk n fun c => f c m := by
  have h : ((vmk n fun c => vmk k (f c)).map List.length).min? = some k := by
    have : (vmk n fun c => vmk k (f c)).map List.length = List.replicate n k := by
      refine List.ext_getElem (by simp [vmk]) fun i _ _ => ?_
      simp [vmk]
    rw [this, List.min?_replicate, if_neg (by omega)]
  unfold zipStar
  rw [h]
  refine List.map_congr_left fun m hm => ?_
  unfold vmk
  rw [List.map_map]
  refine List.map_congr_left fun c _ => ?_
  have := List.mem_range.1 hm
  simp [List.getD, this]

/-- C121: the table written for one or more columns of results: below the header there is one row for the seconds, one for the SMSE and one for the NLPD, with mean and standard error of
each column; in each row just one column is in bold, the first one with the least mean -/
theorem C121_table (F : NumText) (hF : ∀ fmt x, F fmt x ≠ [] ∧ '$' ∉ F fmt x) (cols : List String) {n : ℕ} (hn : 1 ≤ n) (seconds : ℕ → ℝ × ℝ) (smse nlpd : ℕ → Option ℝ × Option ℝ) :
    ∃ b₀ b₁ b₂, Emphasised n (fun c => some (seconds c).1) b₀ ∧ Emphasised n (fun c => (smse c).1) b₁ ∧ Emphasised n (fun c => (nlpd c).1) b₂ ∧
      latexTable F cols ((List.range n).map fun c => [[some (seconds c).1, some (seconds c).2], [(smse c).1, (smse c).2], [(nlpd c).1, (nlpd c).2]]) =
        .ok (tableHead cols ++
          (rowText "seconds" n (fun c => (F "d" (some (towardZero (seconds c).1)), F "d" (some (towardZero (seconds c).2)))) b₀ ++
          rowText "SMSE" n (fun c => (F ".2f" (smse c).1, F ".2f" (smse c).2)) b₁ ++
          rowText "NLPD" n (fun c => (F ".2f" (nlpd c).1, F ".2f" (nlpd c).2)) b₂) ++ tableFoot) := by
  obtain ⟨b₀, e₀, r₀⟩ := row_text F hF "seconds" "d" hn (fun c => (some (seconds c).1, some (seconds c).2)) (fun c => (some (towardZero (seconds c).1), some (towardZero (seconds c).2)))
    (fun c _ => by rw [if_pos rfl]; exact ⟨intOf_some _, intOf_some _⟩)
  obtain ⟨b₁, e₁, r₁⟩ := row_text F hF "SMSE" ".2f" hn smse smse (fun c _ => by rw [if_neg (by decide)])
  obtain ⟨b₂, e₂, r₂⟩ := row_text F hF "NLPD" ".2f" hn nlpd nlpd (fun c _ => by rw [if_neg (by decide)])
  refine ⟨b₀, b₁, b₂, e₀, e₁, e₂, ?_⟩
  have hz : zipStar ((List.range n).map fun c => [[some (seconds c).1, some (seconds c).2], [(smse c).1, (smse c).2], [(nlpd c).1, (nlpd c).2]]) =
      [vmk n fun c => [some (seconds c).1, some (seconds c).2], vmk n fun c => [(smse c).1, (smse c).2], vmk n fun c => [(nlpd c).1, (nlpd c).2]] := by
    have := zipStar_vmk (k := 3) hn fun c m => if m = 0 then [some (seconds c).1, some (seconds c).2] else if m = 1 then [(smse c).1, (smse c).2] else [(nlpd c).1, (nlpd c).2]
    simpa [vmk, List.range_succ] using this
  unfold latexTable
  rw [hz]
  simp only [List.zip_cons_cons, List.zip_nil_left, mapExcept, r₀, r₁, r₂, bind, Except.bind, pure, Except.pure, joinChars_eq]
  unfold tableHead tableFoot
  simp [List.append_assoc]

/-- C121: if all means are numbers then the column in bold is the first one with the least mean -/
theorem C121_best {n : ℕ} {x : ℕ → ℝ} {b : ℕ} : Emphasised n (fun c => some (x c)) b ↔ b < n ∧ (∀ i < n, x b ≤ x i) ∧ ∀ i < b, x b < x i := by
  constructor
  · rintro ⟨h, ⟨h0, -⟩ | ⟨-, y, hy, hall⟩⟩
    · cases h0
    · obtain rfl := Option.some.inj hy
      exact ⟨h, fun i hi => (hall i hi _ rfl).1, fun i hi => (hall i (hi.trans h) _ rfl).2 hi⟩
  · rintro ⟨h, h1, h2⟩
    refine ⟨h, Or.inr ⟨by simp, x b, rfl, ?_⟩⟩
    intro i hi y hy
    obtain rfl := Option.some.inj hy
    exact ⟨h1 i hi, fun h => h2 i h⟩

/-- C121: there is just one column in bold in a row -/
theorem C121_one {n : ℕ} {key : ℕ → Option ℝ} {b b' : ℕ} (h : Emphasised n key b) (h' : Emphasised n key b') : b = b' := by
  obtain ⟨hb, h | ⟨h0, x, hx, hall⟩⟩ := h <;> obtain ⟨hb', h' | ⟨h0', x', hx', hall'⟩⟩ := h'
  · rw [h.2, h'.2]
  · exact absurd h.1 h0'
  · exact absurd h'.1 h0
  · rcases lt_trichotomy b b' with hlt | he | hlt
    · exact absurd ((hall b' hb' x' hx').1) (not_le.2 ((hall' b hb x hx).2 hlt))
    · exact he
    · exact absurd ((hall' b hb x hx).1) (not_le.2 ((hall b' hb' x' hx').2 hlt))

/-- C121: if the mean of the first column is not a number then this column is in bold, although another column may have a mean -/
theorem C121_first_not_number {n : ℕ} {key : ℕ → Option ℝ} (h0 : key 0 = none) {b : ℕ} (h : Emphasised n key b) : b = 0 := by
  obtain ⟨-, h | h⟩ := h
  · exact h.2
  · exact absurd h0 h.1

theorem mapExcept_first_error {α β : Type} {f : α → Except PyErr β} {e : PyErr} : ∀ {l : List α}, (∀ a ∈ l, ∀ e', f a = .error e' → e' = e) → (∃ a ∈ l, ∃ e', f a = .error e') →
    mapExcept f l = .error e
  | [], _, h => by obtain ⟨a, ha, -⟩ := h; cases ha
  | x :: l, hall, h => by
    rw [mapExcept]
    cases hx : f x with
    | error e' => rw [hall x List.mem_cons_self e' hx]; rfl
    | ok y =>
      have : mapExcept f l = .error e := by
        refine mapExcept_first_error (fun a ha => hall a (List.mem_cons_of_mem _ ha)) ?_
        obtain ⟨a, ha, e', he'⟩ := h
        rcases List.mem_cons.1 ha with rfl | ha
        · rw [hx] at he'; cases he'
        · exact ⟨a, ha, e', he'⟩
      show (mapExcept f l).bind _ = _
      rw [this]; rfl

/-- C121: there is no table if a time is not a number -/
theorem C121_no_time (F : NumText) (cols : List String) {n : ℕ} (hn : 1 ≤ n) (seconds smse nlpd : ℕ → Option ℝ × Option ℝ) {c : ℕ} (hc : c < n)
    (hbad : (seconds c).1 = none ∨ (seconds c).2 = none) :
    latexTable F cols ((List.range n).map fun c => [[(seconds c).1, (seconds c).2], [(smse c).1, (smse c).2], [(nlpd c).1, (nlpd c).2]]) = .error .valueError := by
  have hz : zipStar ((List.range n).map fun c => [[(seconds c).1, (seconds c).2], [(smse c).1, (smse c).2], [(nlpd c).1, (nlpd c).2]]) =
      [vmk n fun c => [(seconds c).1, (seconds c).2], vmk n fun c => [(smse c).1, (smse c).2], vmk n fun c => [(nlpd c).1, (nlpd c).2]] := by
    have := zipStar_vmk (k := 3) hn fun c m => if m = 0 then [(seconds c).1, (seconds c).2] else if m = 1 then [(smse c).1, (smse c).2] else [(nlpd c).1, (nlpd c).2]
    simpa [vmk, List.range_succ] using this
  obtain ⟨b, hb, -⟩ := minKey_emphasised hn fun c => (seconds c).1
  have h1 : mapExcept firstOf (vmk n fun c => [(seconds c).1, (seconds c).2]) =
      .ok (vmk n fun c => (seconds c).1) := mapExcept_of_vmk fun i _ => rfl
  have hi : ∀ a e, intOf a = .error e → e = .valueError := by
    intro a e h
    cases a with
    | none => exact (Except.error.inj h).symm
    | some x => cases h
  have hrow : ∀ r : List (Option ℝ), ∀ e, mapExcept intOf r = .error e → e = .valueError := by
    intro r
    induction r with
    | nil => intro e h; cases h
    | cons x r ih =>
      intro e h
      rw [mapExcept] at h
      cases hx : intOf x with
      | error e' => rw [hx] at h; obtain rfl := Except.error.inj h; exact hi x _ hx
      | ok y =>
        rw [hx] at h
        cases hr : mapExcept intOf r with
        | error e' =>
          have h' : (mapExcept intOf r).bind (fun ys => .ok (y :: ys)) = .error e := h
          rw [hr] at h'; obtain rfl := Except.error.inj h'; exact ih _ hr
        | ok ys =>
          have h' : (mapExcept intOf r).bind (fun ys => .ok (y :: ys)) = .error e := h
          rw [hr] at h'; cases h'
  have h2 : mapExcept (fun r => mapExcept intOf r) (vmk n fun c => [(seconds c).1, (seconds c).2]) = .error .valueError := by
    refine mapExcept_first_error (fun r _ e => hrow r e) ⟨[(seconds c).1, (seconds c).2], List.mem_map.2 ⟨c, List.mem_range.2 hc, rfl⟩, .valueError, ?_⟩
    refine mapExcept_first_error (fun a _ e => hi a e) ?_
    rcases hbad with h | h
    · exact ⟨none, by rw [h]; simp, .valueError, rfl⟩
    · exact ⟨none, by rw [h]; simp, .valueError, rfl⟩
  have h2' : converted "d" (vmk n fun c => [(seconds c).1, (seconds c).2]) = .error .valueError := by unfold converted; rw [if_pos rfl, h2]
  have hr : tableRow F "seconds" "d" (vmk n fun c => [(seconds c).1, (seconds c).2]) = .error .valueError := by
    unfold tableRow
    simp only [h1, hb, h2', bind, Except.bind]
  unfold latexTable
  rw [hz]
  simp only [List.zip_cons_cons, mapExcept, hr, bind, Except.bind]

/-- C121: the line printed for a run -/
theorem C121_line (F : NumText) (time smse nlpd : Option ℝ × Option ℝ) :
    statsline F [[time.1, time.2], [smse.1, smse.2], [nlpd.1, nlpd.2]] = .ok
      ("time ".toList ++ F "10.4f" time.1 ++ " (".toList ++ F "10.4f" time.2 ++ ") smse ".toList ++ F "10.4f" smse.1 ++ " (".toList ++ F "10.4f" smse.2 ++
        ") nlpd ".toList ++ F "10.4f" nlpd.1 ++ " (".toList ++ F "10.4f" nlpd.2 ++ ")".toList) := by
  simp [statsline, statprint, mapExcept, joinChars, bind, Except.bind, pure, Except.pure]

/-- the hypotheses of the table are met by a way to write numbers and two columns; the second one is faster, and the NLPD of the first is not a number -/
example : ∃ F : NumText, (∀ fmt x, F fmt x ≠ [] ∧ '$' ∉ F fmt x) ∧ Emphasised 2 (fun c => some (if c = 0 then (3 : ℝ) else 2)) 1 ∧
    Emphasised 2 (fun c => if c = 0 then none else some (2 : ℝ)) 0 := by
  refine ⟨fun _ _ => ['1'], fun _ _ => ⟨by simp, by simp⟩, ?_, ⟨by omega, Or.inl ⟨by simp, rfl⟩⟩⟩
  rw [C121_best]
  refine ⟨by omega, ?_, ?_⟩
  · intro i _; by_cases h : i = 0 <;> simp [h]; norm_num
  · intro i hi
    obtain rfl : i = 0 := by omega
    simp; norm_num

end Verif
