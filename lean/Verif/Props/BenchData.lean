import Verif.Model.BenchData
import Verif.Spec.BenchData
import Verif.Props.Bench
import Verif.Props.Likelihood
import Verif.Props.LikReady
import Verif.Props.GpyLMC
import Mathlib.MeasureTheory.Integral.Pi

/-! C105: how the data of the benchmarks are divided and made. -/

namespace Verif

open MeasureTheory

theorem fxHoldout_iff (col : String) (i : ℕ) : (fxHoldout col).1 ≤ i ∧ i < (fxHoldout col).2 ↔ HeldOutDay col i := by
  unfold fxHoldout HeldOutDay
  by_cases h1 : col = "CAD"
  · subst h1; simp
  by_cases h2 : col = "JPY"
  · subst h2; simp
  by_cases h3 : col = "AUD"
  · subst h3; simp
  simp [h1, h2, h3]

theorem mem_fxHoldin {n : ℕ} {col : String × List (Option ℝ)} (hc : col.2.length = n) (i : ℕ) :
    i ∈ fxHoldin n col ↔ i < n ∧ col.2.getD i none ≠ none ∧ ¬ HeldOutDay col.1 i := by
  unfold fxHoldin flatTrue fillSlice fillMask
  simp only [List.mem_filter, List.mem_range, List.length_mapIdx, List.length_replicate]
  constructor
  · rintro ⟨h1, h2⟩
    refine ⟨h1, ?_⟩
    rw [List.getD_eq_getElem _ _ (by simpa using h1)] at h2
    simp only [List.getElem_mapIdx, List.getElem_replicate] at h2
    split_ifs at h2 with h3 h4
    rw [fxHoldout_iff] at h3
    refine ⟨fun he => h4 ?_, h3⟩
    rw [List.getD_eq_getElem _ _ (by simpa [hc] using h1), List.getElem_map]
    rw [List.getD_eq_getElem _ _ (by rw [hc]; exact h1)] at he
    rw [he]
    rfl
  · rintro ⟨h1, h2, h3⟩
    refine ⟨h1, ?_⟩
    rw [List.getD_eq_getElem _ _ (by simpa using h1)]
    simp only [List.getElem_mapIdx, List.getElem_replicate]
    rw [if_neg (by rw [fxHoldout_iff]; exact h3), if_neg]
    intro h4
    rw [List.getD_eq_getElem _ _ (by simpa [hc] using h1), List.getElem_map] at h4
    rw [List.getD_eq_getElem _ _ (by rw [hc]; exact h1)] at h2
    exact h2 (Option.isNone_iff_eq_none.1 h4)

theorem pySlice_range (n b e : ℕ) : pySlice (List.range n) b e = (List.range n).filter fun i => decide (b ≤ i ∧ i < e) := by
  unfold pySlice
  induction n with
  | zero => simp
  | succ n ih =>
    rw [List.range_succ, List.filter_append, ← ih]
    by_cases h : n < e
    · rw [List.take_of_length_le (by simp; omega)]
      rw [List.take_of_length_le (by simp; omega)]
      by_cases hb : b ≤ n
      · rw [List.drop_append_of_le_length (by simpa using hb)]
        simp [h, hb]
      · rw [List.drop_eq_nil_of_le (by simp; omega), List.drop_eq_nil_of_le (by simp; omega)]
        simp [hb]
    · rw [List.take_append_of_le_length (by simp; omega)]
      simp [h]

theorem pySlice_map {α β : Type} (f : α → β) (x : List α) (b e : ℕ) : pySlice (x.map f) b e = (pySlice x b e).map f := by
  unfold pySlice
  rw [← List.map_take, ← List.map_drop]

theorem list_eq_map_range {α : Type} (l : List α) (x : α) : l = (List.range l.length).map fun i => l.getD i x := by
  refine List.ext_getElem (by simp) fun i h1 h2 => ?_
  rw [List.getElem_map, List.getElem_range, List.getD_eq_getElem _ _ h1]

theorem reciprocal_inverse : reciprocal = inverseRate := by
  funext v
  cases v with
  | none => rfl
  | some v =>
    unfold reciprocal floatDiv inverseRate
    simp only [Option.bind_some, one_div]

/-- C105, foreign exchange: for every table of rates and every currency in it, the training days are the days with a rate that are not held out and the test days
those held out, both in order, so that no day is in both and every day with a rate is in one; each day comes with the reciprocal of its own rate. (A test day without
a rate stays in the test data, as `nan`.) -/
theorem C105_fx (t : FxTable) (hl : ∀ c ∈ t.columns, c.2.length = t.n) (c : ℕ) (hc : c < t.columns.length) :
    let col := t.columns.getD c ("", [])
    let xs := (fxSplit t).1.getD c []
    let xs' := (fxSplit t).2.2.1.getD c []
    (∀ i, i ∈ xs ↔ i < t.n ∧ col.2.getD i none ≠ none ∧ ¬ HeldOutDay col.1 i) ∧ (∀ i, i ∈ xs' ↔ i < t.n ∧ HeldOutDay col.1 i) ∧
    xs.Pairwise (· < ·) ∧ xs'.Pairwise (· < ·) ∧ (∀ i ∈ xs, i ∉ xs') ∧
    (fxSplit t).2.1.getD c [] = xs.map (fun i => inverseRate (col.2.getD i none)) ∧ (fxSplit t).2.2.2.getD c [] = xs'.map (fun i => inverseRate (col.2.getD i none)) := by
  rw [← reciprocal_inverse]
  have hmem : t.columns.getD c ("", []) ∈ t.columns := getD_mem_of_lt hc _
  obtain ⟨col, hcol⟩ : ∃ col, col = t.columns.getD c ("", []) := ⟨_, rfl⟩
  rw [← hcol] at hmem
  have hn := hl _ hmem
  have e1 : (fxSplit t).1.getD c [] = fxHoldin t.n col := by
    unfold fxSplit
    simp only
    rw [map_getD_lt hc _ _ ("", []), ← hcol]
    conv_rhs => rw [← List.map_id (fxHoldin t.n col)]
    refine List.map_congr_left fun i hi => ?_
    have := ((mem_fxHoldin hn i).1 hi).1
    rw [List.getD_eq_getElem _ _ (by simpa using this), List.getElem_range]
    rfl
  have e2 : (fxSplit t).2.2.1.getD c [] = (List.range t.n).filter fun i => decide ((fxHoldout col.1).1 ≤ i ∧ i < (fxHoldout col.1).2) := by
    unfold fxSplit
    simp only
    rw [map_getD_lt hc _ _ ("", []), ← hcol, pySlice_range]
  intro col' xs xs'
  have hcol' : col' = col := hcol.symm
  have hxs : xs = fxHoldin t.n col := e1
  have hxs' : xs' = _ := e2
  rw [hcol']
  have m1 : ∀ i, i ∈ xs ↔ i < t.n ∧ col.2.getD i none ≠ none ∧ ¬ HeldOutDay col.1 i := fun i => by rw [hxs]; exact mem_fxHoldin hn i
  have m2 : ∀ i, i ∈ xs' ↔ i < t.n ∧ HeldOutDay col.1 i := fun i => by
    rw [hxs', List.mem_filter, List.mem_range, decide_eq_true_iff, fxHoldout_iff]
  refine ⟨m1, m2, ?_, ?_, fun i h1 h2 => ((m1 i).1 h1).2.2 ((m2 i).1 h2).2, ?_, ?_⟩
  · rw [hxs]
    exact List.pairwise_lt_range.filter _
  · rw [hxs']
    exact List.pairwise_lt_range.filter _
  · rw [hxs]
    unfold fxSplit
    simp only
    rw [map_getD_lt hc _ _ ("", []), ← hcol]
  · rw [hxs']
    unfold fxSplit
    simp only
    rw [map_getD_lt hc _ _ ("", []), ← hcol]
    conv_lhs => rw [list_eq_map_range col.2 none, pySlice_map, List.map_map, hn, pySlice_range]
    rfl

/-- C105 applied to 120 days of two currencies: day 3 has no Canadian rate and is in neither part, day 50 is a test day for the Canadian dollar only -/
example : let t : FxTable := ⟨120, [("CAD", (List.replicate 120 (some 2)).set 3 none), ("EUR", List.replicate 120 (some 1))]⟩
    (∀ c ∈ t.columns, c.2.length = t.n) ∧ 3 ∉ (fxSplit t).1.getD 0 [] ∧ 3 ∉ (fxSplit t).2.2.1.getD 0 [] ∧ 4 ∈ (fxSplit t).1.getD 0 [] ∧
      50 ∈ (fxSplit t).2.2.1.getD 0 [] ∧ 50 ∉ (fxSplit t).1.getD 0 [] ∧ 50 ∈ (fxSplit t).1.getD 1 [] := by
  intro t
  have hl : ∀ c ∈ t.columns, c.2.length = t.n := fun c hc => by
    simp only [t, List.mem_cons, List.not_mem_nil, or_false] at hc
    rcases hc with rfl | rfl <;> simp [t]
  obtain ⟨a1, a2, -⟩ := C105_fx t hl 0 (by simp [t])
  obtain ⟨b1, -⟩ := C105_fx t hl 1 (by simp [t])
  refine ⟨hl, fun h => ?_, fun h => ?_, (a1 4).2 ?_, (a2 50).2 ?_, fun h => ?_, (b1 50).2 ?_⟩
  · exact ((a1 3).1 h).2.1 (by simp [t])
  · have := ((a2 3).1 h).2
    simp [HeldOutDay, t] at this
  · simp [HeldOutDay, t]
  · simp [HeldOutDay, t]
  · exact ((a1 50).1 h).2.2 (by simp [HeldOutDay, t])
  · simp [HeldOutDay, t]

open Classical in
theorem weather_rows (x y : List ℝ) :
    ((x.zip (y.map fun t => if t = -1 then none else some t)).filterMap fun p : ℝ × Option ℝ => p.2.map fun t => (p.1, t)) = measured x y := by
  unfold measured
  induction x generalizing y with
  | nil => simp
  | cons a x ih =>
    cases y with
    | nil => simp
    | cons b y =>
      simp only [List.map_cons, List.zip_cons_cons]
      by_cases hb : b = -1
      · subst hb
        rw [if_pos rfl, List.filterMap_cons_none (by rfl), ih, List.filter_cons_of_neg (by simp)]
      · rw [if_neg hb, List.filterMap_cons_some (b := (a, b)) (by rfl), ih, List.filter_cons_of_pos (by simpa using hb)]

theorem divided_filter {α : Type} (l : List α) (p : α → Bool) {out : α → Prop} (h : ∀ r ∈ l, p r = true ↔ out r) : Divided l (l.filter fun r => !p r) (l.filter p) out where
  perm := (List.perm_append_comm).trans (List.filter_append_perm p l)
  kept r hr := by
    obtain ⟨h1, h2⟩ := List.mem_filter.1 hr
    rw [← h r h1]
    simpa using h2
  held r hr := by
    obtain ⟨h1, h2⟩ := List.mem_filter.1 hr
    exact (h r h1).1 h2
  trainOrder := List.filter_sublist
  testOrder := List.filter_sublist

theorem rezip {α β : Type} (l : List (α × β)) : (l.map Prod.fst).zip (l.map Prod.snd) = l := by
  induction l with
  | nil => rfl
  | cons a l ih => simp [ih]

/-- C105, weather: the files are refused (AssertionError) exactly if a time is missing or the number of missing temperatures is not the expected one; otherwise, for every
sensor, the measured rows are divided into training and test rows by the time interval of that sensor, without loss or overlap and with times and temperatures kept
together. -/
theorem C105_weather (f : String → List ℝ × List ℝ) :
    (((∃ s ∈ missingTemperatures, -1 ∈ (f s.1).1 ∨ (f s.1).2.count (-1) ≠ s.2) → weather f = .error .assertionError) ∧
    ((∀ s ∈ missingTemperatures, -1 ∉ (f s.1).1 ∧ (f s.1).2.count (-1) = s.2) → ∃ r, weather f = .ok r ∧ r.length = 4 ∧
      ∀ (d : ℕ) (hd : d < 4), ∃ tx ty ex ey, r.getD d ([], [], [], []) = (tx, ty, ex, ey) ∧ tx.length = ty.length ∧ ex.length = ey.length ∧
        Divided (measured (f (["bra", "cam", "chi", "sot"].getD d "")).1 (f (["bra", "cam", "chi", "sot"].getD d "")).2) (tx.zip ty) (ex.zip ey)
          fun p => HeldOutTime (["bra", "cam", "chi", "sot"].getD d "") p.1)) := by
  have hx : ∀ x : List ℝ, (open Classical in (x.filter fun t => decide (t = -1)).length ≠ 0) ↔ -1 ∈ x := fun x => by
    classical
    rw [← Nat.pos_iff_ne_zero, List.length_pos_iff_exists_mem]
    simp
  have hy : ∀ y : List ℝ, (open Classical in (y.filter fun t => decide (t = -1)).length) = y.count (-1) := fun y => by
    classical
    rw [List.count_eq_length_filter]
    congr 1
  have hbad : ∀ x y na hold, (-1 ∈ x ∨ y.count (-1) ≠ na) → weatherSensor x y na hold = .error .assertionError := fun x y na hold h => by
    unfold weatherSensor
    rcases h with h | h
    · rw [if_pos ((hx x).2 h)]
    · by_cases h1 : -1 ∈ x
      · rw [if_pos ((hx x).2 h1)]
      · rw [if_neg (by rw [hx]; exact h1), if_pos (by rw [hy]; exact h)]
  have hgood : ∀ x y na hold (out : ℝ → Prop), -1 ∉ x → y.count (-1) = na → (∀ t, (∃ a b, hold = some (a, b) ∧ a ≤ t ∧ t ≤ b) ↔ out t) →
      ∃ tx ty ex ey, weatherSensor x y na hold = .ok (tx, ty, ex, ey) ∧ tx.length = ty.length ∧ ex.length = ey.length ∧
        Divided (measured x y) (tx.zip ty) (ex.zip ey) fun p => out p.1 := fun x y na hold out h1 h2 h3 => by
    unfold weatherSensor
    rw [if_neg (by rw [hx]; exact h1), if_neg (by rw [hy, h2]; simp)]
    simp only [weather_rows]
    cases hold with
    | none =>
      refine ⟨_, _, _, _, rfl, by simp, rfl, ?_⟩
      rw [rezip]
      refine ⟨by simp, fun r _ ho => ?_, by simp, List.Sublist.refl _, by simp⟩
      obtain ⟨a, b, h, -⟩ := (h3 _).2 ho
      cases h
    | some ab =>
      obtain ⟨a, b⟩ := ab
      refine ⟨_, _, _, _, rfl, by simp, by simp, ?_⟩
      rw [rezip, rezip]
      refine divided_filter _ _ fun r _ => ?_
      rw [decide_eq_true_iff, ← h3]
      constructor
      · intro h; exact ⟨a, b, rfl, h⟩
      · rintro ⟨a', b', h, h'⟩
        cases h
        exact h'
  constructor
  · rintro ⟨s, hs, hbs⟩
    unfold weather
    have hall : ∃ s ∈ weatherSensors, -1 ∈ (f s.1).1 ∨ (f s.1).2.count (-1) ≠ s.2.1 := by
      simp only [missingTemperatures, List.mem_cons, List.not_mem_nil, or_false] at hs
      rcases hs with rfl | rfl | rfl | rfl
      · exact ⟨("bra", 100, none), by simp [weatherSensors], hbs⟩
      · exact ⟨("cam", 0, some (10.2, 10.8)), by simp [weatherSensors], hbs⟩
      · exact ⟨("chi", 15, some (13.5, 14.2)), by simp [weatherSensors], hbs⟩
      · exact ⟨("sot", 1002, none), by simp [weatherSensors], hbs⟩
    have key : ∀ l : List (String × ℕ × Option (ℝ × ℝ)), (∃ s ∈ l, -1 ∈ (f s.1).1 ∨ (f s.1).2.count (-1) ≠ s.2.1) →
        mapExcept (fun s => weatherSensor (f s.1).1 (f s.1).2 s.2.1 s.2.2) l = .error .assertionError := by
      intro l
      induction l with
      | nil => rintro ⟨s, hs, -⟩; simp at hs
      | cons s0 l ih =>
        rintro ⟨s, hs, h⟩
        simp only [mapExcept]
        by_cases h0 : -1 ∈ (f s0.1).1 ∨ (f s0.1).2.count (-1) ≠ s0.2.1
        · rw [hbad _ _ _ _ h0]
          rfl
        · push Not at h0
          obtain ⟨tx, ty, ex, ey, e, -⟩ := hgood _ _ _ s0.2.2 (fun t => ∃ a b, s0.2.2 = some (a, b) ∧ a ≤ t ∧ t ≤ b) h0.1 h0.2 fun _ => Iff.rfl
          rw [e]
          rcases List.mem_cons.1 hs with rfl | hs
          · exact absurd h (by push Not; exact h0)
          · rw [ih ⟨s, hs, h⟩]
            rfl
    exact key _ hall
  · intro h
    unfold weather
    have b0 := h ("bra", 100) (by simp [missingTemperatures])
    have b1 := h ("cam", 0) (by simp [missingTemperatures])
    have b2 := h ("chi", 15) (by simp [missingTemperatures])
    have b3 := h ("sot", 1002) (by simp [missingTemperatures])
    obtain ⟨p0, p1, p2, p3, e0, p4, p5, p6⟩ := hgood (f "bra").1 (f "bra").2 100 none (HeldOutTime "bra") b0.1 b0.2 (fun t => by simp [HeldOutTime])
    obtain ⟨q0, q1, q2, q3, e1, q4, q5, q6⟩ := hgood (f "cam").1 (f "cam").2 0 (some (10.2, 10.8)) (HeldOutTime "cam") b1.1 b1.2 (fun t => by simp [HeldOutTime])
    obtain ⟨r0, r1, r2, r3, e2, r4, r5, r6⟩ := hgood (f "chi").1 (f "chi").2 15 (some (13.5, 14.2)) (HeldOutTime "chi") b2.1 b2.2 (fun t => by simp [HeldOutTime])
    obtain ⟨s0, s1, s2, s3, e3, s4, s5, s6⟩ := hgood (f "sot").1 (f "sot").2 1002 none (HeldOutTime "sot") b3.1 b3.2 (fun t => by simp [HeldOutTime])
    refine ⟨[(p0, p1, p2, p3), (q0, q1, q2, q3), (r0, r1, r2, r3), (s0, s1, s2, s3)], ?_, rfl, fun d hd => ?_⟩
    · simp only [weatherSensors, mapExcept, e0, e1, e2, e3, ok_bind]
      rfl
    · interval_cases d
      · exact ⟨_, _, _, _, rfl, p4, p5, p6⟩
      · exact ⟨_, _, _, _, rfl, q4, q5, q6⟩
      · exact ⟨_, _, _, _, rfl, r4, r5, r6⟩
      · exact ⟨_, _, _, _, rfl, s4, s5, s6⟩

/-- weather files as expected, with one row held out for the second sensor -/
noncomputable def someWeather (s : String) : List ℝ × List ℝ :=
  if s = "bra" then (List.replicate 101 1, 5 :: List.replicate 100 (-1)) else if s = "cam" then ([10, 10.5, 11], [7, 8, 9])
  else if s = "chi" then (List.replicate 16 1, 5 :: List.replicate 15 (-1)) else (List.replicate 1003 1, 5 :: List.replicate 1002 (-1))

theorem someWeather_files : someWeather "bra" = (List.replicate 101 1, 5 :: List.replicate 100 (-1)) ∧ someWeather "cam" = ([10, 10.5, 11], [7, 8, 9]) ∧
    someWeather "chi" = (List.replicate 16 1, 5 :: List.replicate 15 (-1)) ∧ someWeather "sot" = (List.replicate 1003 1, 5 :: List.replicate 1002 (-1)) := by
  unfold someWeather
  have h1 : ("cam" : String) ≠ "bra" := by decide
  have h2 : ("chi" : String) ≠ "bra" := by decide
  have h3 : ("chi" : String) ≠ "cam" := by decide
  have h4 : ("sot" : String) ≠ "bra" := by decide
  have h5 : ("sot" : String) ≠ "cam" := by decide
  have h6 : ("sot" : String) ≠ "chi" := by decide
  refine ⟨by rw [if_pos rfl], by rw [if_neg h1, if_pos rfl], by rw [if_neg h2, if_neg h3, if_pos rfl], by rw [if_neg h4, if_neg h5, if_neg h6]⟩

/-- C105 applied to them -/
example : ∃ r tx ty ex ey, weather someWeather = .ok r ∧ r.getD 1 ([], [], [], []) = (tx, ty, ex, ey) ∧ (10.5, 8) ∈ ex.zip ey ∧ (10, 7) ∈ tx.zip ty := by
  obtain ⟨f1, f2, f3, f4⟩ := someWeather_files
  have hs : ∀ s ∈ missingTemperatures, -1 ∉ (someWeather s.1).1 ∧ (someWeather s.1).2.count (-1) = s.2 := fun s hs => by
    simp only [missingTemperatures, List.mem_cons, List.not_mem_nil, or_false] at hs
    rcases hs with rfl | rfl | rfl | rfl <;> simp only [f1, f2, f3, f4] <;> norm_num [List.count_cons, List.mem_replicate, List.count_replicate]
  obtain ⟨r, h1, -, h3⟩ := (C105_weather someWeather).2 hs
  obtain ⟨tx, ty, ex, ey, h4, h5, h6, h7⟩ := h3 1 (by norm_num)
  simp only [show ["bra", "cam", "chi", "sot"].getD 1 "" = "cam" from rfl, f2] at h7
  have hm : ∀ p ∈ [((10 : ℝ), (7 : ℝ)), (10.5, 8)], p ∈ tx.zip ty ++ ex.zip ey := fun p hp => by
    refine h7.perm.mem_iff.2 ?_
    simp only [List.mem_cons, List.not_mem_nil, or_false] at hp
    rcases hp with rfl | rfl <;> norm_num [measured]
  refine ⟨r, tx, ty, ex, ey, h1, h4, ?_, ?_⟩
  · refine (List.mem_append.1 (hm (10.5, 8) (by simp))).resolve_left fun h => h7.kept _ h (.inl ⟨rfl, by norm_num, by norm_num⟩)
  · refine (List.mem_append.1 (hm (10, 7) (by simp))).resolve_right fun h => ?_
    have := h7.held _ h
    norm_num [HeldOutTime] at this

/-- C105, synthetic data: of five outputs, the first four keep all rows for training and have no test rows; those of the last are divided by the upper right quadrant of
the unit square. -/
theorem C105_synth (rows : List (List SynthRow)) (h : rows.length = 5) :
    ∃ train test, synthSplit rows = .ok (train, test) ∧ train.length = 5 ∧ test.length = 5 ∧ (∀ d < 4, train.getD d [] = rows.getD d [] ∧ test.getD d [] = []) ∧
      Divided (rows.getD 4 []) (train.getD 4 []) (test.getD 4 []) fun r => 0.5 ≤ r.1.1 ∧ 0.5 ≤ r.1.2 := by
  match rows, h with
  | [r0, r1, r2, r3, r4], _ =>
    classical
    refine ⟨_, _, rfl, rfl, rfl, fun d hd => ?_, ?_⟩
    · interval_cases d <;> exact ⟨rfl, rfl⟩
    · exact divided_filter r4 (fun r : SynthRow => decide (0.5 ≤ r.1.1 ∧ 0.5 ≤ r.1.2)) fun r _ => by rw [decide_eq_true_iff]

/-- C105 applied to five outputs with two rows each: one row of the last output is held out -/
example : ∃ train test, synthSplit (List.replicate 5 [((0.25, 0.75), 1), ((0.5, 0.75), 2)]) = .ok (train, test) ∧
    Divided [(((0.25 : ℝ), (0.75 : ℝ)), (1 : ℝ)), ((0.5, 0.75), 2)] (train.getD 4 []) (test.getD 4 []) fun r => 0.5 ≤ r.1.1 ∧ 0.5 ≤ r.1.2 := by
  obtain ⟨train, test, h1, -, -, -, h5⟩ := C105_synth (List.replicate 5 [((0.25, 0.75), 1), ((0.5, 0.75), 2)]) (by simp)
  exact ⟨train, test, h1, h5⟩

/-! ### the synthetic data -/

open Matrix in
/-- what `np.linalg.cholesky` does with a symmetric positive definite matrix -/
theorem npCholesky_symm {n : ℕ} {f : ℕ → ℕ → ℝ} (hf : ∀ i j, f i j = f j i) (h : (fnMatrix n n f).PosDef) :
    ∃ L, npCholesky (Arr2.of n n f) = .ok L ∧ L.rows = n ∧ L.cols = n ∧ (∀ i < n, ∀ j < n, i < j → L.get i j = 0) ∧
      ∀ i < n, ∀ j < n, ∑ k ∈ Finset.range n, L.get i k * L.get j k = f i j := by
  have e : (Matrix.of fun i j : Fin n => (Arr2.of n n f).get (max (i : ℕ) j) (min (i : ℕ) j)) = fnMatrix n n f := by
    rw [← cholesky_symm hf]
    ext i j
    simp only [Matrix.of_apply]
    rw [Arr2.of_get (by have := i.2; have := j.2; omega) (by have := i.2; omega), hf]
  have hex : ∃ U, CholeskyOf n (fun i j => (Arr2.of n n f).get j i) U := by
    obtain ⟨U, h1, h2, h3⟩ := exists_cholesky n _ h
    exact ⟨U, h1, h2, h3.trans e.symm⟩
  obtain ⟨U, hU⟩ : ∃ U, U = hex.choose := ⟨_, rfl⟩
  have hs : CholeskyOf n (fun i j => (Arr2.of n n f).get j i) U := hU ▸ hex.choose_spec
  have hp : Uᵀ * U = fnMatrix n n f := hs.prod.trans e
  obtain ⟨V, hV⟩ : ∃ V : Arr2 ℝ, V = Arr2.of n n fun i j => if hij : i < n ∧ j < n ∧ i ≤ j then U ⟨i, hij.1⟩ ⟨j, hij.2.1⟩ else (Arr2.of n n f).get j i := ⟨_, rfl⟩
  have hc : cholesky n (fun i j => (Arr2.of n n f).get j i) = .ok V := by
    unfold cholesky
    rw [dif_pos hex, hV, hU]
  have hL : ∀ i (hi : i < n) k (hk : k < n), (Arr2.of n n fun i j => if j ≤ i then V.get j i else 0).get i k = U ⟨k, hk⟩ ⟨i, hi⟩ := fun i hi k hk => by
    rw [Arr2.of_get hi hk]
    split_ifs with hki
    · rw [hV, Arr2.of_get hk hi, dif_pos ⟨hk, hi, hki⟩]
    · exact (hs.upper _ _ (by simpa using hki)).symm
  refine ⟨Arr2.of n n fun i j => if j ≤ i then V.get j i else 0, ?_, rfl, rfl, fun i hi j hj hij => ?_, fun i hi j hj => ?_⟩
  · unfold npCholesky
    rw [if_neg (by simp [Arr2.of])]
    show (cholesky n _ >>= _) = _
    rw [hc]
    rfl
  · rw [Arr2.of_get hi hj, if_neg (by omega)]
  · rw [Finset.sum_range]
    have := congrFun (congrFun hp ⟨i, hi⟩) ⟨j, hj⟩
    rw [Matrix.mul_apply] at this
    rw [show f i j = fnMatrix n n f ⟨i, hi⟩ ⟨j, hj⟩ from rfl, ← this]
    refine Finset.sum_congr rfl fun k _ => ?_
    rw [hL i hi k k.2, hL j hj k k.2, Matrix.transpose_apply]

/-- what mkdata.py computes -/
theorem synthSample_ok (fk : FK) (P : ℕ) (h : fk.Ready P) (hs : fk.Sound) (Xs : List (Arr2 ℝ)) (hX : InputsOK fk.D P Xs) :
    ∃ L : Arr2 ℝ, (∀ r < (Xs.map Arr2.rows).sum, ∀ s < (Xs.map Arr2.rows).sum,
        ∑ k ∈ Finset.range (Xs.map Arr2.rows).sum, L.get r k * L.get s k = ({ fk with noise := List.replicate fk.D (1 / 10) } : FK).fullCov Xs r s) ∧
      ∀ z, synthSample fk Xs z = .ok (Arr2.of (Xs.map Arr2.rows).sum (Xs.map Arr2.rows).sum (({ fk with noise := List.replicate fk.D (1 / 10) } : FK).fullCov Xs),
        vmk (Xs.map Arr2.rows).sum fun i => ∑ j ∈ Finset.range (Xs.map Arr2.rows).sum, L.get i j * z.getD j 0) := by
  obtain ⟨fk2, h2⟩ : ∃ fk2 : FK, fk2 = { fk with noise := List.replicate fk.D (1 / 10) } := ⟨_, rfl⟩
  rw [← h2]
  set n := (Xs.map Arr2.rows).sum with hn
  have hown : ∀ r < n, ownerOf (Xs.map Arr2.rows) r < fk.D := fun r hr => by
    have := ownerOf_lt _ _ hr
    rwa [List.length_map, hX.len] at this
  have hcov : fk2.cov = fk.cov := by rw [h2]; rfl
  have hnoise : ∀ a < fk.D, fk2.noise.getD a 0 = 1 / 10 := fun a ha => by
    rw [h2]
    simp only
    rw [List.getD_eq_getElem _ _ (by simpa using ha), List.getElem_replicate]
  have hpd : (fnMatrix n n (fk2.fullCov Xs)).PosDef := by
    have hD : fk2.D = fk.D := by rw [h2]
    have hw : fk2.WF := by
      rw [h2]
      exact ⟨h.wf.Dpos, h.wf.vecs, h.wf.diags, by simp, h.wf.counts, h.wf.vec, h.wf.diag, h.wf.slfm, h.wf.slfmRank, h.wf.indep⟩
    exact covMat_posDef hw (hX.len.trans hD.symm) (by rw [h2]; exact hs.kernels) (by rw [h2]; exact hs.kappa) fun a ha => by
      rw [hnoise a (hD ▸ ha)]
      norm_num
  obtain ⟨L, l1, l2, l3, -, l5⟩ := npCholesky_symm (fullCov_symm (fk := fk2) Xs) hpd
  refine ⟨L, l5, fun z => ?_⟩
  unfold synthSample
  rw [kernelFromIndices_ok h hX hX, ok_bind]
  have hK : ∀ g : ℕ → ℕ → ℝ, (∀ r < n, ∀ s < n, g r s + (if r = s then 1 / 10 else 0) = fk2.fullCov Xs r s) →
      (Arr2.of n n g).add (npDiagMat (vmk (Arr2.of n n g).rows fun _ => 1 / 10)) = Arr2.of n n (fk2.fullCov Xs) := fun g hg => by
    show Arr2.of n n _ = _
    refine Arr2.of_congr fun r hr s hs' => ?_
    rw [Arr2.of_get hr hs', npDiagMat, Arr2.of_get (by rw [vmk_length]; exact hr) (by rw [vmk_length]; exact hs'), vmk_getD_lt (by exact hr)]
    exact hg r hr s hs'
  simp only
  rw [hK _ fun r hr s hs' => by
    unfold FK.fullCov
    simp only
    rw [hcov, hnoise _ (hown r hr)], l1, ok_bind, l2, l3]
  rfl

/-- C105, how the synthetic data are made: for every functional kernel and all inputs, the sampled outputs have exactly the covariance that the LMC model with this kernel
and noise 0.1 gives to them. -/
theorem C105_sample (fk : FK) (P : ℕ) (h : fk.Ready P) (hs : fk.Sound) (Xs : List (Arr2 ℝ)) (hX : InputsOK fk.D P Xs) {Ω : Type} [MeasurableSpace Ω] (μ : Measure Ω)
    (z : Ω → List ℝ) (hz : Uncorrelated μ (Xs.map Arr2.rows).sum z) :
    ∃ (K : Arr2 ℝ) (y : Ω → List ℝ), (∀ ω, synthSample fk Xs (z ω) = .ok (K, y ω)) ∧ (∀ ω, (y ω).length = (Xs.map Arr2.rows).sum) ∧
      ∀ r < (Xs.map Arr2.rows).sum, ∀ s < (Xs.map Arr2.rows).sum, K.get r s = ({ fk with noise := List.replicate fk.D (1 / 10) } : FK).fullCov Xs r s ∧
        ∫ ω, (y ω).getD r 0 * (y ω).getD s 0 ∂μ = ({ fk with noise := List.replicate fk.D (1 / 10) } : FK).fullCov Xs r s := by
  obtain ⟨L, l5, hL⟩ := synthSample_ok fk P h hs Xs hX
  set n := (Xs.map Arr2.rows).sum with hn
  refine ⟨_, _, fun ω => hL (z ω), fun ω => vmk_length .., fun r hr s hs' => ⟨Arr2.of_get hr hs', ?_⟩⟩
  simp only [vmk_getD_lt hr, vmk_getD_lt hs']
  have e : ∀ ω, (∑ j ∈ Finset.range n, L.get r j * (z ω).getD j 0) * (∑ j ∈ Finset.range n, L.get s j * (z ω).getD j 0) =
      ∑ i ∈ Finset.range n, ∑ j ∈ Finset.range n, L.get r i * L.get s j * ((z ω).getD i 0 * (z ω).getD j 0) := fun ω => by
    rw [Finset.sum_mul_sum]
    refine Finset.sum_congr rfl fun i _ => Finset.sum_congr rfl fun j _ => ?_
    ring
  simp only [e]
  rw [integral_finsetSum _ fun i hi => integrable_finsetSum _ fun j hj => ((hz i (Finset.mem_range.1 hi) j (Finset.mem_range.1 hj)).1.const_mul _)]
  rw [← l5 r hr s hs']
  refine Finset.sum_congr rfl fun i hi => ?_
  rw [integral_finsetSum _ fun j hj => ((hz i (Finset.mem_range.1 hi) j (Finset.mem_range.1 hj)).1.const_mul _)]
  rw [Finset.sum_eq_single_of_mem i hi]
  · rw [integral_const_mul, (hz i (Finset.mem_range.1 hi) i (Finset.mem_range.1 hi)).2, if_pos rfl, mul_one]
  · intro j hj hne
    rw [integral_const_mul, (hz i (Finset.mem_range.1 hi) j (Finset.mem_range.1 hj)).2, if_neg (Ne.symm hne), mul_zero]

/-- independent standard normal numbers are uncorrelated with variance 1 -/
theorem standardNormals_uncorrelated (n : ℕ) : Uncorrelated (standardNormals n) n fun z => List.ofFn z := by
  intro i hi j hj
  have h1 : ∫ x : ℝ, x ∂ProbabilityTheory.gaussianReal 0 1 = 0 := ProbabilityTheory.integral_id_gaussianReal
  have i1 : Integrable (fun x : ℝ => x) (ProbabilityTheory.gaussianReal 0 1) := (ProbabilityTheory.memLp_id_gaussianReal 1).integrable (by norm_num)
  have i2 : Integrable (fun x : ℝ => x * x) (ProbabilityTheory.gaussianReal 0 1) := by
    have := (ProbabilityTheory.memLp_id_gaussianReal (μ := 0) (v := 1) 2).integrable_sq
    refine this.congr (ae_of_all _ fun x => ?_)
    simp [sq]
  have h2 : ∫ x : ℝ, x * x ∂ProbabilityTheory.gaussianReal 0 1 = 1 := by
    have := ProbabilityTheory.variance_fun_id_gaussianReal (μ := 0) (v := 1)
    rw [ProbabilityTheory.variance_eq_integral (by fun_prop)] at this
    simp only [h1, sub_zero] at this
    rw [← NNReal.coe_one, ← this]
    exact integral_congr_ae (ae_of_all _ fun x => by simp [sq])
  obtain ⟨f, hf⟩ : ∃ f : Fin n → ℝ → ℝ, f = fun k : Fin n => fun x : ℝ => (if (k : ℕ) = i then x else 1) * if (k : ℕ) = j then x else 1 := ⟨_, rfl⟩
  have e : (fun z : Fin n → ℝ => (List.ofFn z).getD i 0 * (List.ofFn z).getD j 0) = fun z => ∏ k, f k (z k) := by
    funext z
    rw [List.getD_eq_getElem _ _ (by simpa using hi), List.getD_eq_getElem _ _ (by simpa using hj), List.getElem_ofFn, List.getElem_ofFn, hf, Finset.prod_mul_distrib]
    congr 1
    · rw [Finset.prod_eq_single_of_mem ⟨i, hi⟩ (Finset.mem_univ _) fun k _ hk => if_neg fun h => hk (Fin.ext h), if_pos rfl]
    · rw [Finset.prod_eq_single_of_mem ⟨j, hj⟩ (Finset.mem_univ _) fun k _ hk => if_neg fun h => hk (Fin.ext h), if_pos rfl]
  have hval : ∀ k, Integrable (f k) (ProbabilityTheory.gaussianReal 0 1) ∧
      ∫ x, f k x ∂ProbabilityTheory.gaussianReal 0 1 = if (k : ℕ) = i then (if (k : ℕ) = j then 1 else 0) else if (k : ℕ) = j then 0 else 1 := fun k => by
    by_cases a : (k : ℕ) = i
    · by_cases b : (k : ℕ) = j
      · have : f k = fun x => x * x := by rw [hf]; funext x; simp only [if_pos a, if_pos b]
        rw [this, if_pos a, if_pos b]
        exact ⟨i2, h2⟩
      · have : f k = fun x => x := by rw [hf]; funext x; simp only [if_pos a, if_neg b, mul_one]
        rw [this, if_pos a, if_neg b]
        exact ⟨i1, h1⟩
    · by_cases b : (k : ℕ) = j
      · have : f k = fun x => x := by rw [hf]; funext x; simp only [if_neg a, if_pos b, one_mul]
        rw [this, if_neg a, if_pos b]
        exact ⟨i1, h1⟩
      · have : f k = fun _ => 1 := by rw [hf]; funext x; simp only [if_neg a, if_neg b, one_mul]
        rw [this, if_neg a, if_neg b]
        exact ⟨integrable_const _, by simp⟩
  show Integrable (fun z : Fin n → ℝ => (List.ofFn z).getD i 0 * (List.ofFn z).getD j 0) _ ∧ ∫ z, (fun z : Fin n → ℝ => (List.ofFn z).getD i 0 * (List.ofFn z).getD j 0) z ∂_ = _
  rw [e]
  refine ⟨Integrable.fintype_prod fun k => (hval k).1, ?_⟩
  refine (integral_fintype_prod_eq_prod (f := f) (μ := fun _ => ProbabilityTheory.gaussianReal 0 1)).trans ?_
  rw [Finset.prod_congr rfl fun k _ => (hval k).2]
  by_cases hij : i = j
  · rw [if_pos hij]
    refine Finset.prod_eq_one fun k _ => ?_
    subst hij
    split_ifs <;> rfl
  · rw [if_neg hij]
    exact Finset.prod_eq_zero (Finset.mem_univ ⟨i, hi⟩) (by simp [hij])

/-- C105 applied to two observations of each of two outputs on the plane -/
example : ∃ (K : Arr2 ℝ) (y : (Fin 4 → ℝ) → List ℝ), (∀ ω, synthSample planeFK (padded 2 planeXs) (List.ofFn ω) = .ok (K, y ω)) ∧
    ∫ ω, (y ω).getD 0 0 * (y ω).getD 3 0 ∂standardNormals 4 = ({ planeFK with noise := List.replicate 2 (1 / 10) } : FK).fullCov (padded 2 planeXs) 0 3 := by
  have hX : InputsOK 2 2 (padded 2 planeXs) := by
    refine ⟨rfl, fun X hX => ?_, fun X hX => ?_⟩ <;> simp only [padded, planeXs, List.map_cons, List.map_nil, List.mem_cons, List.not_mem_nil, or_false] at hX <;>
      rcases hX with rfl | rfl <;> rfl
  obtain ⟨K, y, h1, -, h3⟩ := C105_sample planeFK 2 plane_ready.1 plane_ready.2 (padded 2 planeXs) hX (standardNormals 4) (fun z => List.ofFn z) (standardNormals_uncorrelated 4)
  exact ⟨K, y, h1, (h3 0 (by decide) 3 (by decide)).2⟩

/-- a linear combination of independent standard normal numbers is normal -/
theorem standardNormals_combination (n : ℕ) (c : Fin n → ℝ) :
    (standardNormals n).map (fun ω => ∑ k, c k * ω k) = ProbabilityTheory.gaussianReal 0 (∑ k, c k ^ 2).toNNReal := by
  have hm : Measurable fun ω : Fin n → ℝ => ∑ k, c k * ω k := by fun_prop
  have : IsProbabilityMeasure (standardNormals n) := by unfold standardNormals; infer_instance
  have : IsProbabilityMeasure ((standardNormals n).map fun ω => ∑ k, c k * ω k) := Measure.isProbabilityMeasure_map hm.aemeasurable
  refine Measure.ext_of_charFun ?_
  ext t
  rw [charFun_apply_real, ProbabilityTheory.charFun_gaussianReal, integral_map hm.aemeasurable (by fun_prop)]
  have e : ∀ ω : Fin n → ℝ, Complex.exp (t * ((∑ k, c k * ω k : ℝ) : ℂ) * Complex.I) = ∏ k, Complex.exp (((t * c k : ℝ) : ℂ) * ω k * Complex.I) := fun ω => by
    rw [← Complex.exp_sum]
    congr 1
    push_cast
    rw [Finset.mul_sum, Finset.sum_mul]
    refine Finset.sum_congr rfl fun k _ => by ring
  simp only [e]
  unfold standardNormals
  rw [integral_fintype_prod_eq_prod (f := fun (k : Fin n) (x : ℝ) => Complex.exp (((t * c k : ℝ) : ℂ) * x * Complex.I))]
  simp only [← charFun_apply_real, ProbabilityTheory.charFun_gaussianReal]
  rw [← Complex.exp_sum]
  congr 1
  rw [Real.coe_toNNReal _ (Finset.sum_nonneg fun k _ => sq_nonneg _)]
  push_cast
  simp only [mul_zero, zero_mul, zero_sub, Finset.sum_neg_distrib, one_mul, Finset.sum_mul, Finset.sum_div]
  congr 1
  refine Finset.sum_congr rfl fun k _ => by ring

/-- C105, how the synthetic data are made, as a distribution: with independent standard normal numbers, the sampled outputs are jointly normal with the covariance of the
LMC model with this kernel and noise 0.1, so they are a draw from that model. -/
theorem C105_normal (fk : FK) (P : ℕ) (h : fk.Ready P) (hs : fk.Sound) (Xs : List (Arr2 ℝ)) (hX : InputsOK fk.D P Xs) :
    ∃ (K : Arr2 ℝ) (y : (Fin (Xs.map Arr2.rows).sum → ℝ) → List ℝ), (∀ z, synthSample fk Xs (List.ofFn z) = .ok (K, y z)) ∧
      (∀ z, (y z).length = (Xs.map Arr2.rows).sum) ∧
      JointlyNormal (standardNormals (Xs.map Arr2.rows).sum) (Xs.map Arr2.rows).sum y (({ fk with noise := List.replicate fk.D (1 / 10) } : FK).fullCov Xs) := by
  obtain ⟨L, l5, hL⟩ := synthSample_ok fk P h hs Xs hX
  set n := (Xs.map Arr2.rows).sum with hn
  refine ⟨_, _, fun z => hL (List.ofFn z), fun z => vmk_length .., fun t => ?_⟩
  obtain ⟨c, hc⟩ : ∃ c : Fin n → ℝ, c = fun k : Fin n => ∑ r ∈ Finset.range n, t r * L.get r k := ⟨_, rfl⟩
  have e1 : (fun z : Fin n → ℝ => ∑ r ∈ Finset.range n, t r * (vmk n fun i => ∑ j ∈ Finset.range n, L.get i j * (List.ofFn z).getD j 0).getD r 0) = fun z => ∑ k, c k * z k := by
    funext z
    have : ∀ r ∈ Finset.range n, t r * (vmk n fun i => ∑ j ∈ Finset.range n, L.get i j * (List.ofFn z).getD j 0).getD r 0 = ∑ k : Fin n, t r * L.get r k * z k := fun r hr => by
      rw [vmk_getD_lt (Finset.mem_range.1 hr), Finset.sum_range, Finset.mul_sum]
      refine Finset.sum_congr rfl fun k _ => ?_
      rw [List.getD_eq_getElem _ _ (by simp), List.getElem_ofFn]
      ring
    rw [Finset.sum_congr rfl this, Finset.sum_comm]
    refine Finset.sum_congr rfl fun k _ => ?_
    rw [hc, Finset.sum_mul]
  have e2 : ∑ k, c k ^ 2 = ∑ r ∈ Finset.range n, ∑ s ∈ Finset.range n, t r * t s * ({ fk with noise := List.replicate fk.D (1 / 10) } : FK).fullCov Xs r s := by
    have : ∀ r ∈ Finset.range n, ∑ s ∈ Finset.range n, t r * t s * ({ fk with noise := List.replicate fk.D (1 / 10) } : FK).fullCov Xs r s =
        ∑ k : Fin n, ∑ s ∈ Finset.range n, t r * L.get r k * (t s * L.get s k) := fun r hr => by
      rw [Finset.sum_comm]
      refine Finset.sum_congr rfl fun s hs' => ?_
      rw [← l5 r (Finset.mem_range.1 hr) s (Finset.mem_range.1 hs'), Finset.sum_range, Finset.mul_sum]
      refine Finset.sum_congr rfl fun k _ => by ring
    rw [Finset.sum_congr rfl this, Finset.sum_comm]
    refine Finset.sum_congr rfl fun k _ => ?_
    rw [hc, sq, Finset.sum_mul_sum]
  rw [← e2, ← standardNormals_combination, e1]

/-! ### the kernel of the synthetic data -/

/-- the kernel of mkdata.py -/
noncomputable def synthFK (v0 v1 : ℕ → ℝ) : FK :=
  { D := 5, kernels := [.rbf 5 (some [0, 1]), .rbf 0.5 (some [0, 1])] ++ List.replicate 5 (.rbf 2 (some [0, 1])),
    coregVecs := [Arr2.of 1 5 fun _ j => v0 j, Arr2.of 1 5 fun _ j => v1 j] ++ List.replicate 5 (Arr2.zeros 1 5),
    coregDiags := List.replicate 2 (vmk 5 fun _ => 0) ++ vmk 5 fun d => vmk 5 fun j => if j = d then 1 else 0, noise := vmk 5 fun _ => 0.1,
    linkedVecs := 2, linkedDiags := 0, numLmcTotal := 0, numSlfmTotal := 2, P := some 2, activeDims := [([0, 1], [0, 1, 2, 3, 4, 5, 6])],
    numLmc := [([0, 1], 0)], numSlfm := [([0, 1], 2)], numIndep := [([0, 1], 5)] }

theorem unitDiag_nat (D : ℕ) (d : ℕ) (hd : d < D) : unitDiag D d = .ok (vmk D fun j => if j = d then 1 else 0) := by
  unfold unitDiag
  have h0 : ¬ ((d : ℤ) < 0) := by omega
  simp only [if_neg h0]
  rw [if_pos ⟨by omega, by omega⟩]
  rfl

theorem genRandomK_ok (rand : ℕ → ℕ → ℕ → ℝ) : genRandomK rand = .ok
    { D := 5, kernels := [.rbf 5 none, .rbf 0.5 none] ++ List.replicate 5 (.rbf 2 none),
      coregVecs := initAq rand 5 [] 2 5,
      coregDiags := List.replicate 2 (vmk 5 fun _ => 0) ++ vmk 5 fun d => vmk 5 fun j => if j = d then 1 else 0, noise := vmk 5 fun _ => 0.1,
      linkedVecs := 2, linkedDiags := 0, numLmcTotal := 0, numSlfmTotal := 2, P := none, activeDims := [],
      numLmc := [], numSlfm := [], numIndep := [] } := by
  have hd : mapExcept (unitDiag 5) (indexOrRange none 5) = .ok (vmk 5 fun d => vmk 5 fun j => if j = d then 1 else 0) := by
    have : indexOrRange none 5 = [((0 : ℕ) : ℤ), ((1 : ℕ) : ℤ), ((2 : ℕ) : ℤ), ((3 : ℕ) : ℤ), ((4 : ℕ) : ℤ)] := rfl
    rw [this]
    simp only [mapExcept, unitDiag_nat 5 0 (by norm_num), unitDiag_nat 5 1 (by norm_num), unitDiag_nat 5 2 (by norm_num), unitDiag_nat 5 3 (by norm_num), unitDiag_nat 5 4 (by norm_num)]
    rfl
  unfold genRandomK fkNew
  simp only [lenOpt, ok_bind, Option.getD_some, List.length_replicate, initKq]
  rw [show (Int.toNat 5) = 5 from rfl, hd]
  rfl

theorem synthFK_dims (vecs : List (Arr2 ℝ)) (diags : List (List ℝ)) (noise : List ℝ) : FK.setInputDim
    { D := 5, kernels := [.rbf 5 none, .rbf 0.5 none] ++ List.replicate 5 (.rbf 2 none),
      coregVecs := vecs, coregDiags := diags, noise := noise,
      linkedVecs := 2, linkedDiags := 0, numLmcTotal := 0, numSlfmTotal := 2, P := none, activeDims := [],
      numLmc := [], numSlfm := [], numIndep := [] } 2 = .ok
    { D := 5, kernels := [.rbf 5 (some [0, 1]), .rbf 0.5 (some [0, 1])] ++ List.replicate 5 (.rbf 2 (some [0, 1])),
      coregVecs := vecs, coregDiags := diags, noise := noise,
      linkedVecs := 2, linkedDiags := 0, numLmcTotal := 0, numSlfmTotal := 2, P := some 2, activeDims := [([0, 1], [0, 1, 2, 3, 4, 5, 6])],
      numLmc := [([0, 1], 0)], numSlfm := [([0, 1], 2)], numIndep := [([0, 1], 5)] } := by
  simp [FK.setInputDim, setDimStep, vmk, List.range, List.range.loop, resolveDims, Kern.activeDims, Kern.setActiveDims, dictSet, dictGet, countKey, fillZeros, List.replicate]

theorem mkData_ok (rand : ℕ → ℕ → ℕ → ℝ) (v0 v1 : ℕ → ℝ) (Xs : List (Arr2 ℝ)) (z : List ℝ) : mkData rand v0 v1 Xs z = synthSample (synthFK v0 v1) Xs z := by
  unfold mkData
  rw [genRandomK_ok, ok_bind]
  simp only
  rw [synthFK_dims, ok_bind]
  rfl

theorem vmk_nil_getD (n i : ℕ) : (vmk n fun _ => (0 : ℝ)).getD i 0 = 0 := by
  by_cases h : i < n
  · rw [vmk_getD_lt h]
  · exact List.getD_eq_default _ _ (by rw [vmk_length]; omega)

theorem noVecs_get (i j : ℕ) : (Arr2.zeros 1 5).get i j = 0 := by
  exact vmk_nil_getD 5 (i * 5 + j)

theorem synthFK_ready (v0 v1 : ℕ → ℝ) : (synthFK v0 v1).Ready 2 ∧ (synthFK v0 v1).Sound := by
  have hker : ∀ k ∈ (synthFK v0 v1).kernels, ∃ γ : ℝ, 0 < γ ∧ k = .rbf γ (some [0, 1]) := fun k hk => by
    simp only [synthFK, List.mem_append, List.mem_cons, List.not_mem_nil, or_false, List.mem_replicate] at hk
    rcases hk with (rfl | rfl) | ⟨-, rfl⟩
    · exact ⟨5, by norm_num, rfl⟩
    · exact ⟨0.5, by norm_num, rfl⟩
    · exact ⟨2, by norm_num, rfl⟩
  have hwf : (synthFK v0 v1).WF := by
    refine ⟨by simp [synthFK], rfl, rfl, rfl, by simp [synthFK], fun q hq => ?_, fun q hq => ?_, fun q h1 h2 => ?_, fun q h1 h2 => ?_, fun q h1 i j => ?_⟩
    · change q < 7 at hq
      interval_cases q <;> refine ⟨rfl, rfl, ?_⟩ <;> simp [synthFK, Arr2.of, Arr2.zeros]
    · change q < 7 at hq
      interval_cases q <;> rfl
    · change 0 ≤ q at h1; change q < 0 + 2 at h2
      interval_cases q <;> exact vmk_nil_getD 5
    · change 0 ≤ q at h1; change q < 0 + 2 at h2
      interval_cases q <;> rfl
    · change 0 + 2 ≤ q at h1
      by_cases h7 : q < 7
      · interval_cases q <;> exact noVecs_get i j
      · have : (synthFK v0 v1).coregVecs.getD q ⟨0, 0, []⟩ = ⟨0, 0, []⟩ := List.getD_eq_default _ _ (by simp [synthFK]; omega)
        rw [this]
        rfl
  have hr : (synthFK v0 v1).Ready 2 := by
    refine ⟨hwf, by simp [synthFK, FK.Q], rfl, by decide, fun k hk => ?_, fun k hk => ?_, fun ad had c hc => ?_⟩
    · obtain ⟨γ, h1, rfl⟩ := hker k hk
      exact h1
    · obtain ⟨γ, h1, rfl⟩ := hker k hk
      exact ⟨[0, 1], rfl, by simp [synthFK]⟩
    · simp only [synthFK, List.map_cons, List.map_nil, List.mem_singleton] at had
      subst had
      simp at hc; omega
  refine ⟨hr, fun q hq => C36_kernels_psd _ 2 hr q hq (.inl ?_), fun k hk => ?_, fun q hq a ha => ?_, fun a ha => ?_⟩
  · obtain ⟨γ, h1, h2⟩ := hker _ (getD_mem_of_lt hq (.identity none))
    rw [h2]
    trivial
  · obtain ⟨γ, h1, rfl⟩ := hker k hk
    trivial
  · change q < 7 at hq
    change a < 5 at ha
    interval_cases q <;> interval_cases a <;> simp [synthFK, vmk]
  · change a < 5 at ha
    interval_cases a <;> norm_num [synthFK, vmk]

theorem synthFK_cov (v0 v1 : ℕ → ℝ) (a b : ℕ) (ha : a < 5) (hb : b < 5) (x y : ℕ → ℝ) : (synthFK v0 v1).cov a b x y =
    v0 a * v0 b * Real.exp (-5 * ((x 0 - y 0) ^ 2 + (x 1 - y 1) ^ 2) / 2) + v1 a * v1 b * Real.exp (-0.5 * ((x 0 - y 0) ^ 2 + (x 1 - y 1) ^ 2) / 2) +
      if a = b then Real.exp (-2 * ((x 0 - y 0) ^ 2 + (x 1 - y 1) ^ 2) / 2) else 0 := by
  have hd : distOn [0, 1] x y ^ 2 = (x 0 - y 0) ^ 2 + (x 1 - y 1) ^ 2 := by
    unfold distOn
    rw [Real.sq_sqrt]
    · simp
    · exact List.sum_nonneg (by intro v hv; obtain ⟨c, -, rfl⟩ := List.mem_map.1 hv; positivity)
  have hk : ∀ γ : ℝ, (Kern.rbf γ (some [0, 1])).doc (distOn [0, 1] x y) = Real.exp (-γ * ((x 0 - y 0) ^ 2 + (x 1 - y 1) ^ 2) / 2) := fun γ => by
    rw [← hd]
    rfl
  have hB0 : (synthFK v0 v1).B 0 a b = v0 a * v0 b := by
    show (∑ r ∈ Finset.range 1, (Arr2.of 1 5 fun _ j => v0 j).get r a * (Arr2.of 1 5 fun _ j => v0 j).get r b) + (if a = b then (vmk 5 fun _ => (0 : ℝ)).getD a 0 else 0) = _
    rw [Finset.sum_range_one, Arr2.of_get (by norm_num) ha, Arr2.of_get (by norm_num) hb, vmk_getD_lt ha]
    simp
  have hB1 : (synthFK v0 v1).B 1 a b = v1 a * v1 b := by
    show (∑ r ∈ Finset.range 1, (Arr2.of 1 5 fun _ j => v1 j).get r a * (Arr2.of 1 5 fun _ j => v1 j).get r b) + (if a = b then (vmk 5 fun _ => (0 : ℝ)).getD a 0 else 0) = _
    rw [Finset.sum_range_one, Arr2.of_get (by norm_num) ha, Arr2.of_get (by norm_num) hb, vmk_getD_lt ha]
    simp
  have hz : ∀ c, (Arr2.zeros 1 5).get 0 c = 0 := fun c => noVecs_get 0 c
  have hB2 : ∀ d < 5, (synthFK v0 v1).B (d + 2) a b = if a = b then if a = d then 1 else 0 else 0 := fun d hd => by
    have h1 : (synthFK v0 v1).coregVecs.getD (d + 2) ⟨0, 0, []⟩ = Arr2.zeros 1 5 := by interval_cases d <;> rfl
    have h2 : (synthFK v0 v1).coregDiags.getD (d + 2) [] = vmk 5 fun j => if j = d then 1 else 0 := by interval_cases d <;> rfl
    unfold FK.B
    rw [h1, h2, vmk_getD_lt ha]
    show (∑ r ∈ Finset.range 1, _) + _ = _
    rw [Finset.sum_range_one, hz, zero_mul, zero_add]
  have hK : ∀ d < 5, (synthFK v0 v1).kernels.getD (d + 2) (.identity none) = .rbf 2 (some [0, 1]) ∧ (synthFK v0 v1).kdims (d + 2) = [0, 1] := fun d hd => by
    interval_cases d <;> exact ⟨rfl, rfl⟩
  unfold FK.cov
  rw [show (synthFK v0 v1).Q = 5 + 1 + 1 from rfl, Finset.sum_range_succ', Finset.sum_range_succ']
  have e : ∀ d ∈ Finset.range 5, (synthFK v0 v1).B (d + 1 + 1) a b * ((synthFK v0 v1).kernels.getD (d + 1 + 1) (.identity none)).doc (distOn ((synthFK v0 v1).kdims (d + 1 + 1)) x y) =
      if a = d then (if a = b then Real.exp (-2 * ((x 0 - y 0) ^ 2 + (x 1 - y 1) ^ 2) / 2) else 0) else 0 := fun d hd => by
    have hd' := Finset.mem_range.1 hd
    rw [hB2 d hd', (hK d hd').1, (hK d hd').2, hk]
    split_ifs <;> simp
  rw [Finset.sum_congr rfl e, Finset.sum_ite_eq, if_pos (Finset.mem_range.2 ha), hB0, show (0 + 1) = 1 from rfl, hB1]
  show _ + v1 a * v1 b * (Kern.rbf 0.5 (some [0, 1])).doc (distOn [0, 1] x y) + v0 a * v0 b * (Kern.rbf 5 (some [0, 1])).doc (distOn [0, 1] x y) = _
  rw [hk, hk]
  ring

/-- C105, the synthetic data: for all numbers drawn for the kernel and all inputs in the plane, the script does not fail, and the outputs it samples are jointly normal
with the covariance of two shared processes, one process of its own for each of the five outputs, and noise 0.1. -/
theorem C105_data (rand : ℕ → ℕ → ℕ → ℝ) (v0 v1 : ℕ → ℝ) (Xs : List (Arr2 ℝ)) (hX : InputsOK 5 2 Xs) :
    ∃ (K : Arr2 ℝ) (y : (Fin (Xs.map Arr2.rows).sum → ℝ) → List ℝ), (∀ z, mkData rand v0 v1 Xs (List.ofFn z) = .ok (K, y z)) ∧
      (∀ z, (y z).length = (Xs.map Arr2.rows).sum) ∧ JointlyNormal (standardNormals (Xs.map Arr2.rows).sum) (Xs.map Arr2.rows).sum y (synthCov v0 v1 Xs) := by
  obtain ⟨K, y, h1, h2, h3⟩ := C105_normal (synthFK v0 v1) 2 (synthFK_ready v0 v1).1 (synthFK_ready v0 v1).2 Xs hX
  refine ⟨K, y, fun z => (mkData_ok ..).trans (h1 z), h2, fun t => (h3 t).trans ?_⟩
  congr 2
  refine Finset.sum_congr rfl fun r hr => Finset.sum_congr rfl fun s hs => ?_
  congr 1
  have hown : ∀ r < (Xs.map Arr2.rows).sum, ownerOf (Xs.map Arr2.rows) r < 5 := fun r hr => by
    have := ownerOf_lt _ _ hr
    rwa [List.length_map, hX.len] at this
  have ha := hown r (Finset.mem_range.1 hr)
  have hb := hown s (Finset.mem_range.1 hs)
  unfold FK.fullCov synthCov
  simp only
  rw [show ({ synthFK v0 v1 with noise := List.replicate (synthFK v0 v1).D (1 / 10) } : FK).cov = (synthFK v0 v1).cov from rfl, synthFK_cov v0 v1 _ _ ha hb]
  congr 1
  split_ifs
  · rw [List.getD_eq_getElem _ _ (by rw [List.length_replicate]; exact ha), List.getElem_replicate]
  · rfl

/-- inputs that meet the hypotheses of `C105_data`: the same two points for each of the five outputs -/
example : InputsOK 5 2 (List.replicate 5 (Arr2.of 2 2 fun i j => if i = j then 1 else 0)) :=
  ⟨by simp, fun X hX => by rw [(List.mem_replicate.1 hX).2]; rfl, fun X hX => by rw [(List.mem_replicate.1 hX).2]; rfl⟩

end Verif
