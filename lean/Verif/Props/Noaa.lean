import Verif.Proofs.Noaa
import Verif.Proofs.WorkPrice
import Verif.Proofs.EigBound2

/-! C110: the weather station data set. -/

namespace Verif

/-! ### C110: locations -/

theorem sign_north {h : Char} (hh : h = 'N' ∨ h = 'S') (x : ℝ) : (x * if [h] = ['N'] then 1 else -1) = hemisphere h * x := by
  unfold hemisphere
  rcases hh with rfl | rfl <;> simp

theorem sign_east {h : Char} (hh : h = 'E' ∨ h = 'W') (x : ℝ) : (x * if [h] = ['E'] then 1 else -1) = hemisphere h * x := by
  unfold hemisphere
  rcases hh with rfl | rfl <;> simp

theorem dms_fails (s : List Char) : reMatch noaaDms s = none ↔ ¬ ∃ lat lon, IsDms s lat lon := by
  constructor
  · rintro h ⟨lat, lon, hd⟩
    obtain ⟨d₁, m₁, s₁, h₁, d₂, m₂, s₂, h₂, hp, -⟩ := (isDms_iff _ _ _).1 hd
    rw [(dms_match _ _).2 ⟨_, _, _, _, _, _, _, _, hp, rfl⟩] at h
    cases h
  · intro h
    cases hm : reMatch noaaDms s with
    | none => rfl
    | some gs =>
      obtain ⟨d₁, m₁, s₁, h₁, d₂, m₂, s₂, h₂, hp, -⟩ := (dms_match _ _).1 hm
      exact absurd ⟨_, _, (isDms_iff _ _ _).2 ⟨_, _, _, _, _, _, _, _, hp, rfl, rfl⟩⟩ h

theorem dm_fails (s : List Char) : reMatch noaaDm s = none ↔ ¬ ∃ lat lon, IsDm s lat lon := by
  constructor
  · rintro h ⟨lat, lon, hd⟩
    obtain ⟨d₁, m₁, h₁, d₂, m₂, h₂, hp, -⟩ := (isDm_iff _ _ _).1 hd
    rw [(dm_match _ _).2 ⟨_, _, _, _, _, _, hp, rfl⟩] at h
    cases h
  · intro h
    cases hm : reMatch noaaDm s with
    | none => rfl
    | some gs =>
      obtain ⟨d₁, m₁, h₁, d₂, m₂, h₂, hp, -⟩ := (dm_match _ _).1 hm
      exact absurd ⟨_, _, (isDm_iff _ _ _).2 ⟨_, _, _, _, _, _, hp, rfl, rfl⟩⟩ h

theorem location_dms {s : List Char} {lat lon : ℝ} (h : IsDms s lat lon) : noaaLocation s = some (lat, lon) := by
  obtain ⟨d₁, m₁, s₁, h₁, d₂, m₂, s₂, h₂, hp, rfl, rfl⟩ := (isDms_iff _ _ _).1 h
  have hm := (dms_match _ _).2 ⟨_, _, _, _, _, _, _, _, hp, rfl⟩
  obtain ⟨_, _, _, _, _, _, _, _, -, -, -, -, -, -, -, -, -, -, -, -, -, -, hh1, hh2, -⟩ := hp
  unfold noaaLocation
  rw [hm]
  simp only
  rw [sign_north hh1, sign_east hh2]
  simp only [pyDigits_eq, degrees, div_div]
  norm_num

theorem location_dm {s : List Char} {lat lon : ℝ} (hn : ¬ ∃ lat lon, IsDms s lat lon) (h : IsDm s lat lon) : noaaLocation s = some (lat, lon) := by
  obtain ⟨d₁, m₁, h₁, d₂, m₂, h₂, hp, rfl, rfl⟩ := (isDm_iff _ _ _).1 h
  have hm := (dm_match _ _).2 ⟨_, _, _, _, _, _, hp, rfl⟩
  obtain ⟨_, _, _, _, _, _, -, -, -, -, -, -, -, -, -, -, -, -, -, hh1, hh2, -⟩ := hp
  unfold noaaLocation
  rw [(dms_fails s).2 hn]
  simp only
  rw [hm]
  simp only
  rw [sign_north hh1, sign_east hh2]
  simp [pyDigits_eq, degrees, decimal]

/-- C110, locations: the position of a station is what its entry says, in degrees north and east. It is read as degrees, minutes and seconds if the text has this form,
and otherwise as degrees and minutes; one entry with a typing error is corrected. Everything else has no position. -/
theorem C110_location (s : List Char) (lat lon : ℝ) : noaaLocation s = some (lat, lon) ↔
    IsDms s lat lon ∨ ((¬ ∃ lat lon, IsDms s lat lon) ∧ (IsDm s lat lon ∨ ((¬ ∃ lat lon, IsDm s lat lon) ∧ s = "47123'56\"N 120*12'24\"W".toList ∧
      lat = 47 + 23 / 60 + 56 / 3600 ∧ lon = -(120 + 12 / 60 + 24 / 3600)))) := by
  by_cases h1 : ∃ lat lon, IsDms s lat lon
  · obtain ⟨lat', lon', h⟩ := h1
    rw [location_dms h]
    constructor
    · intro e
      obtain ⟨rfl, rfl⟩ := Prod.mk.inj (Option.some.inj e)
      exact .inl h
    · rintro (h' | ⟨hn, -⟩)
      · rw [← location_dms h, location_dms h']
      · exact absurd ⟨_, _, h⟩ hn
  · by_cases h2 : ∃ lat lon, IsDm s lat lon
    · obtain ⟨lat', lon', h⟩ := h2
      rw [location_dm h1 h]
      constructor
      · intro e
        obtain ⟨rfl, rfl⟩ := Prod.mk.inj (Option.some.inj e)
        exact .inr ⟨h1, .inl h⟩
      · rintro (h' | ⟨-, h' | ⟨hn, -⟩⟩)
        · exact absurd ⟨_, _, h'⟩ h1
        · rw [← location_dm h1 h, location_dm h1 h']
        · exact absurd ⟨_, _, h⟩ hn
    · unfold noaaLocation
      rw [(dms_fails s).2 h1]
      simp only
      rw [(dm_fails s).2 h2]
      simp only
      constructor
      · intro e
        split_ifs at e with ht
        obtain ⟨rfl, rfl⟩ := Prod.mk.inj (Option.some.inj e)
        exact .inr ⟨h1, .inr ⟨h2, ht, rfl, by ring⟩⟩
      · rintro (h' | ⟨-, h' | ⟨-, ht, rfl, rfl⟩⟩)
        · exact absurd ⟨_, _, h'⟩ h1
        · exact absurd ⟨_, _, h'⟩ h2
        · rw [if_pos (show s = noaaTypo from ht)]
          congr 2
          ring

/-- the corrected entry has neither form -/
theorem C110_corrected : noaaLocation "47123'56\"N 120*12'24\"W".toList = some (47 + 23 / 60 + 56 / 3600, -(120 + 12 / 60 + 24 / 3600)) := by
  rw [C110_location]
  refine .inr ⟨(dms_fails _).1 (by decide), .inr ⟨(dm_fails _).1 (by decide), rfl, rfl, rfl⟩⟩

/-- degrees, minutes and seconds, with the degree sign that the files use and the letter `W` -/
example : noaaLocation "40*47'30\"N  073*58'15\"W".toList = some (40 + 47 / 60 + 30 / 3600, -(73 + 58 / 60 + 15 / 3600)) := by
  rw [C110_location]
  refine .inl ⟨"40".toList, '*', "47".toList, "'".toList, "30".toList, "\"".toList, 'N', "  ".toList, "073".toList, '*', "58".toList, '\'', "15".toList, "\"".toList, 'W', [], by decide,
    by simp [Numeral, IsDigit], by simp [Numeral, IsDigit], by simp [Numeral, IsDigit], by simp [Numeral, IsDigit], by simp [Numeral, IsDigit], by simp [Numeral, IsDigit], by simp [IsDigit], by simp [IsDigit],
    by simp [IsDigit], by simp, by simp [NoDigit, IsDigit], by simp [NoDigit, IsDigit], by simp [NoDigit, IsDigit], .inl rfl, .inr rfl, by simp, by simp [IsWord, IsDigit],
    fun u v e _ c hc => ?_, ?_, ?_⟩
  · rw [List.nil_eq_append_iff] at e
    rw [e.1] at hc
    cases hc
  · simp [hemisphere, degrees, decimal, Finset.sum_range_succ]
    norm_num
  · simp [hemisphere, degrees, decimal, Finset.sum_range_succ]
    norm_num

/-! ### C110: numbers -/

theorem kept_eq (s : List Char) : (s.filter fun c => reDigit c || decide (c = '.')) = digitsAndPoints s := by
  unfold digitsAndPoints
  refine List.filter_congr fun c _ => ?_
  rw [Bool.eq_iff_iff]
  simp [reDigit_iff]

theorem kept_chars (s : List Char) : ∀ c ∈ digitsAndPoints s, IsDigit c ∨ c = '.' := by
  intro c hc
  unfold digitsAndPoints at hc
  simpa using (List.mem_filter.1 hc).2

theorem point_not_digit : ¬ IsDigit '.' := by simp [IsDigit]

theorem takeWhile_point {a b : List Char} (ha : ∀ c ∈ a, IsDigit c) :
    ((a ++ '.' :: b).takeWhile fun c => decide (c ≠ '.')) = a ∧ ((a ++ '.' :: b).dropWhile fun c => decide (c ≠ '.')) = '.' :: b := by
  have hne : ∀ c ∈ a, decide (c ≠ '.') = true := fun c hc => by
    rw [decide_eq_true_iff]
    rintro rfl
    exact point_not_digit (ha _ hc)
  constructor
  · rw [List.takeWhile_append_of_pos hne, List.takeWhile_cons_of_neg (by simp), List.append_nil]
  · rw [List.dropWhile_append_of_pos hne, List.dropWhile_cons_of_neg (by simp)]

theorem no_point {w : List Char} (hw : ∀ c ∈ w, IsDigit c) : (w.takeWhile fun c => decide (c ≠ '.')) = w ∧ (w.dropWhile fun c => decide (c ≠ '.')) = [] := by
  have hne : ∀ c ∈ w, decide (c ≠ '.') = true := fun c hc => by
    rw [decide_eq_true_iff]
    rintro rfl
    exact point_not_digit (hw _ hc)
  constructor
  · have := List.takeWhile_append_of_pos (l₂ := []) hne
    simpa using this
  · have := List.dropWhile_append_of_pos (l₂ := []) hne
    simpa using this

theorem written_nonempty {w : List Char} {v : ℝ} (h : Written w v) : w ≠ [] := by
  rcases h with ⟨h, -⟩ | ⟨a, b, rfl, -⟩
  · exact h.1
  · simp

theorem toNumeric_written {w : List Char} {v : ℝ} (h : Written w v) : toNumeric w = .ok (some v) := by
  unfold toNumeric
  rw [if_neg (written_nonempty h)]
  rcases h with ⟨h, rfl⟩ | ⟨a, b, rfl, ha, hb, hne, rfl⟩
  · simp only [(no_point h.2).1, (no_point h.2).2, List.drop_nil, List.not_mem_nil, false_or, h.1, false_and, if_false, pyDigits_eq]
    simp [decimal]
  · simp only [(takeWhile_point (b := b) ha).1, (takeWhile_point (b := b) ha).2, List.drop_succ_cons, List.drop_zero, pyDigits_eq]
    rw [if_neg]
    rintro (h | ⟨h1, h2⟩)
    · exact point_not_digit (hb _ h)
    · rcases hne with h | h
      · exact h h1
      · exact h h2

theorem toNumeric_raises {w : List Char} (hc : ∀ c ∈ w, IsDigit c ∨ c = '.') (hne : w ≠ []) (h : ¬ ∃ v, Written w v) : toNumeric w = .error .valueError := by
  unfold toNumeric
  rw [if_neg hne]
  simp only
  rw [if_pos]
  by_contra hcon
  rw [not_or, not_and_or] at hcon
  obtain ⟨h1, h2⟩ := hcon
  apply h
  by_cases hp : '.' ∈ w
  · obtain ⟨a, b, rfl, hnot⟩ := List.eq_append_cons_of_mem hp
    have ha : ∀ c ∈ a, IsDigit c := fun c hcc => by
      rcases hc c (List.mem_append_left _ hcc) with h | rfl
      · exact h
      · exact absurd hcc hnot
    rw [(takeWhile_point (b := b) ha).2, List.drop_succ_cons, List.drop_zero] at h1 h2
    rw [(takeWhile_point (b := b) ha).1] at h2
    refine ⟨_, .inr ⟨a, b, rfl, ha, fun c hcc => ?_, h2, rfl⟩⟩
    rcases hc c (List.mem_append_right _ (List.mem_cons_of_mem _ hcc)) with h | rfl
    · exact h
    · exact absurd hcc h1
  · refine ⟨_, .inl ⟨⟨hne, fun c hcc => ?_⟩, rfl⟩⟩
    rcases hc c hcc with h | rfl
    · exact h
    · exact absurd hcc hp

theorem written_unique {w : List Char} {v v' : ℝ} (h : Written w v) (h' : Written w v') : v = v' := by
  have := (toNumeric_written h).symm.trans (toNumeric_written h')
  simpa using this

theorem cleanNumber_cases (s : List Char) :
    (digitsAndPoints s = [] ∧ cleanNumber s = .ok none) ∨ (∃ v, Written (digitsAndPoints s) v ∧ cleanNumber s = .ok (some v)) ∨
      (digitsAndPoints s ≠ [] ∧ (¬ ∃ v, Written (digitsAndPoints s) v) ∧ cleanNumber s = .error .valueError) := by
  unfold cleanNumber
  rw [kept_eq]
  by_cases h1 : digitsAndPoints s = []
  · exact .inl ⟨h1, by rw [h1]; rfl⟩
  · by_cases h2 : ∃ v, Written (digitsAndPoints s) v
    · obtain ⟨v, hv⟩ := h2
      exact .inr (.inl ⟨v, hv, toNumeric_written hv⟩)
    · exact .inr (.inr ⟨h1, h2, toNumeric_raises (kept_chars s) h1 h2⟩)

theorem cleanNumber_some (s : List Char) (v : ℝ) : cleanNumber s = .ok (some v) ↔ Written (digitsAndPoints s) v := by
  rcases cleanNumber_cases s with ⟨h1, h2⟩ | ⟨v', h1, h2⟩ | ⟨h1, h2, h3⟩
  · rw [h2, h1]
    exact ⟨fun e => (by cases e), fun h => absurd rfl (written_nonempty h)⟩
  · rw [h2]
    constructor
    · intro e
      cases e
      exact h1
    · intro h
      rw [written_unique h1 h]
  · rw [h3]
    exact ⟨fun e => (by cases e), fun h => absurd ⟨v, h⟩ h2⟩

theorem cleanNumber_ok (s : List Char) : (∃ o, cleanNumber s = .ok o) ↔ digitsAndPoints s = [] ∨ ∃ v, Written (digitsAndPoints s) v := by
  rcases cleanNumber_cases s with ⟨h1, h2⟩ | ⟨v', h1, h2⟩ | ⟨h1, h2, h3⟩
  · exact ⟨fun _ => .inl h1, fun _ => ⟨_, h2⟩⟩
  · exact ⟨fun _ => .inr ⟨v', h1⟩, fun _ => ⟨_, h2⟩⟩
  · rw [h3]
    refine ⟨fun ⟨_, e⟩ => (by cases e), fun h => ?_⟩
    rcases h with h | h
    · exact absurd h h1
    · exact absurd h h2

/-! ### C110: rows -/

/-- the number of a text, if it is one -/
noncomputable def numberOf (s : List Char) : Option ℝ :=
  match cleanNumber s with
  | .ok o => o
  | .error _ => none

theorem numberOf_iff (s : List Char) (v : ℝ) : numberOf s = some v ↔ Written (digitsAndPoints s) v := by
  rw [← cleanNumber_some]
  unfold numberOf
  cases cleanNumber s with
  | ok o => simp
  | error x => simp

theorem numbers_iff (l : List (List Char)) (vs : List ℝ) : (l.map numberOf).mapM id = some vs ↔ List.Forall₂ (fun s v => Written (digitsAndPoints s) v) l vs := by
  induction l generalizing vs with
  | nil => simp [eq_comm]
  | cons s l ih =>
    rw [List.map_cons, List.mapM_cons]
    constructor
    · intro h
      cases hn : numberOf s with
      | none =>
        rw [hn] at h
        cases h
      | some v =>
        rw [hn] at h
        cases hr : (l.map numberOf).mapM id with
        | none =>
          rw [hr] at h
          cases h
        | some r =>
          rw [hr] at h
          cases h
          exact .cons ((numberOf_iff s v).1 hn) ((ih r).1 hr)
    · rintro (_ | ⟨h1, h2⟩)
      rw [(numberOf_iff s _).2 h1, (ih _).2 h2]
      rfl

theorem mapExcept_values {l : List (List Char)} (h : ∀ s ∈ l, ∃ o, cleanNumber s = .ok o) : mapExcept cleanNumber l = .ok (l.map numberOf) := by
  refine mapExcept_ok fun s hs => ?_
  obtain ⟨o, ho⟩ := h s hs
  unfold numberOf
  rw [ho]

theorem mem_leftJoin {climate : List ClimateRow} {stations : List (ℕ × List Char)} {c : ClimateRow} (hc : c ∈ climate) : ∃ o, (c, o) ∈ leftJoin climate stations := by
  unfold leftJoin
  cases hf : stations.filter fun s => decide (s.1 = c.wban) with
  | nil => exact ⟨none, List.mem_flatMap.2 ⟨c, hc, by rw [hf]; simp⟩⟩
  | cons x l => exact ⟨some x.2, List.mem_flatMap.2 ⟨c, hc, by rw [hf]; simp⟩⟩

theorem leftJoin_mem {climate : List ClimateRow} {stations : List (ℕ × List Char)} {r : ClimateRow × Option (List Char)} (h : r ∈ leftJoin climate stations) : r.1 ∈ climate := by
  unfold leftJoin at h
  obtain ⟨c, hc, hr⟩ := List.mem_flatMap.1 h
  have : r.1 = c := by
    cases hf : stations.filter fun s => decide (s.1 = c.wban) with
    | nil =>
      rw [hf] at hr
      simp at hr
      rw [hr]
    | cons x l =>
      rw [hf] at hr
      simp only [List.mem_map] at hr
      obtain ⟨y, -, rfl⟩ := hr
      rfl
  rw [this]
  exact hc

theorem located_filter (stations : List (ℕ × Option (List Char))) (n : ℕ) :
    ((stations.filterMap fun s => s.2.map fun l => (s.1, l)).filter fun s => decide (s.1 = n)) = (locationsOf stations n).map fun l => (n, l) := by
  unfold locationsOf
  induction stations with
  | nil => rfl
  | cons s l ih =>
    obtain ⟨k, o⟩ := s
    cases o with
    | none => simpa using ih
    | some x =>
      by_cases hk : k = n
      · subst hk
        simpa using ih
      · simpa [hk] using ih

/-- the rows that come from one measurement -/
theorem clean_ok {climate : List ClimateRow} {stations : List (ℕ × Option (List Char))} (h : ∀ c ∈ climate, ∀ s ∈ c.values, ∃ o, cleanNumber s = .ok o) :
    noaaClean climate stations = .ok (climate.flatMap fun c =>
      match (c.values.map numberOf).mapM id with
      | none => []
      | some vs => (locationsOf stations c.wban).map fun l => ⟨c.wban, vs, noaaLocation l⟩) := by
  unfold noaaClean
  simp only
  rw [mapExcept_ok (g := fun r => (r.1.wban, r.1.values.map numberOf, r.2)) (fun r hr => by
    rw [mapExcept_values (h r.1 (leftJoin_mem hr))]
    rfl)]
  simp only [ok_bind, pure_ok]
  congr 1
  unfold leftJoin
  rw [List.map_flatMap, List.filterMap_flatMap, List.map_flatMap]
  refine List.flatMap_congr fun c _ => ?_
  rw [located_filter]
  cases hv : (c.values.map numberOf).mapM id with
  | none =>
    have hv' : c.values.mapM numberOf = none := by simpa using hv
    cases hl : locationsOf stations c.wban with
    | nil => simp
    | cons x l => simp [hv']
  | some vs =>
    have hv' : c.values.mapM numberOf = some vs := by simpa using hv
    cases hl : locationsOf stations c.wban with
    | nil => simp
    | cons x l => simp [hv', List.filterMap_map, Function.comp_def]

theorem kept_none {s : List Char} : digitsAndPoints s = [] ↔ Nothing s := by
  unfold digitsAndPoints Nothing
  rw [List.filter_eq_nil_iff]
  simp only [decide_eq_true_eq, not_or]

theorem kept_append (a b : List Char) : digitsAndPoints (a ++ b) = digitsAndPoints a ++ digitsAndPoints b := by
  unfold digitsAndPoints
  exact List.filter_append _ _

theorem kept_written {w : List Char} {u : ℝ} (h : Written w u) : digitsAndPoints w = w := by
  unfold digitsAndPoints
  refine List.filter_eq_self.2 fun c hc => ?_
  simp only [decide_eq_true_eq]
  rcases h with ⟨h, -⟩ | ⟨a, b, rfl, ha, hb, -⟩
  · exact .inl (h.2 c hc)
  · rcases List.mem_append.1 hc with hc | hc
    · exact .inl (ha c hc)
    · rcases List.mem_cons.1 hc with rfl | hc
      · exact .inr rfl
      · exact .inl (hb c hc)

theorem decimal_nonneg (w : List Char) : 0 ≤ decimal w := by
  unfold decimal
  exact Finset.sum_nonneg fun i _ => by positivity

theorem written_nonneg {w : List Char} {u : ℝ} (h : Written w u) : 0 ≤ u := by
  rcases h with ⟨-, rfl⟩ | ⟨a, b, -, -, -, -, rfl⟩
  · exact decimal_nonneg w
  · exact add_nonneg (decimal_nonneg a) (div_nonneg (decimal_nonneg b) (by positivity))

/-- a recorded number is kept without its sign -/
theorem recorded_abs {s : List Char} {v : ℝ} (h : Notes s v) : Written (digitsAndPoints s) |v| := by
  obtain ⟨a, w, b, u, rfl, hw, hn, rfl⟩ := h
  have hab : |if a.getLast? = some '-' then -u else u| = u := by
    split_ifs
    · rw [abs_neg, abs_of_nonneg (written_nonneg hw)]
    · exact abs_of_nonneg (written_nonneg hw)
  rw [hab, kept_append, kept_append, kept_none.2 fun c hc => hn c (List.mem_append_left _ hc), kept_none.2 fun c hc => hn c (List.mem_append_right _ hc), kept_written hw]
  simpa using hw

theorem clean_inv {climate : List ClimateRow} {stations : List (ℕ × Option (List Char))} {rows : List NoaaRow} (h : noaaClean climate stations = .ok rows) :
    ∀ c ∈ climate, ∀ s ∈ c.values, ∃ o, cleanNumber s = .ok o := by
  intro c hc s hs
  unfold noaaClean at h
  simp only at h
  obtain ⟨joined, hj, -⟩ := bind_ok.1 h
  obtain ⟨o, ho⟩ := mem_leftJoin (stations := stations.filterMap fun s => s.2.map fun l => (s.1, l)) hc
  obtain ⟨y, -, hy⟩ := forall₂_mem (mapExcept_inv hj) ho
  obtain ⟨vs, hvs, -⟩ := bind_ok.1 hy
  obtain ⟨z, -, hz⟩ := forall₂_mem (mapExcept_inv hvs) hs
  exact ⟨z, hz⟩

/-- C110, rows (partial: a number with a minus sign is exported without it, see `C110_violated`, and a row whose location cannot be read is exported without position, see
`C110_unlocated`). When the script ends, the exported rows come from the measurements one after the other. A measurement of which all values are recorded, and not negative, is
exported once with each location listed for its station, in the order of the list; one of which a value is missing is left out. -/
theorem C110_rows_partial (climate : List ClimateRow) (stations : List (ℕ × Option (List Char))) (rows : List NoaaRow) (h : noaaClean climate stations = .ok rows) :
    ∃ f : ClimateRow → List NoaaRow, rows = climate.flatMap f ∧
      ∀ c ∈ climate, (∀ vs, List.Forall₂ Notes c.values vs → (∀ v ∈ vs, 0 ≤ v) → f c = (locationsOf stations c.wban).map fun l => ⟨c.wban, vs, noaaLocation l⟩) ∧
        ((∃ s ∈ c.values, Nothing s) → f c = []) := by
  have hall := clean_inv h
  rw [clean_ok hall] at h
  refine ⟨_, (Except.ok.inj h).symm, fun c _ => ⟨fun vs hvs hpos => ?_, ?_⟩⟩
  · have : (c.values.map numberOf).mapM id = some vs := by
      rw [numbers_iff]
      clear h
      generalize c.values = texts at hvs
      revert hpos
      induction hvs with
      | nil => exact fun _ => .nil
      | @cons s v l vs h1 _ ih =>
        intro hpos
        refine .cons ?_ (ih fun v hv => hpos v (List.mem_cons_of_mem _ hv))
        have := recorded_abs h1
        rwa [abs_of_nonneg (hpos v List.mem_cons_self)] at this
    rw [this]
  · rintro ⟨s, hs, hno⟩
    cases hv : (c.values.map numberOf).mapM id with
    | none => rfl
    | some vs =>
      exfalso
      obtain ⟨v, -, hv⟩ := forall₂_mem ((numbers_iff _ _).1 hv) hs
      exact written_nonempty hv (kept_none.2 hno)

theorem mapExcept_fails {α β : Type} {f : α → Except PyErr β} : ∀ {l : List α} {x : PyErr}, mapExcept f l = .error x → ∃ a ∈ l, f a = .error x
  | [], x, h => by cases h
  | a :: l, x, h => by
    cases ha : f a with
    | error y =>
      simp only [mapExcept, ha] at h
      cases h
      exact ⟨a, List.mem_cons_self, ha⟩
    | ok y =>
      cases hl : mapExcept f l with
      | error z =>
        simp only [mapExcept, ha, hl, ok_bind] at h
        cases h
        obtain ⟨b, hb, e⟩ := mapExcept_fails hl
        exact ⟨b, List.mem_cons_of_mem _ hb, e⟩
      | ok r =>
        simp only [mapExcept, ha, hl, ok_bind] at h
        cases h

theorem bind_fails {α β : Type} {f : α → Except PyErr β} {e : Except PyErr α} {x : PyErr} (h : (e >>= f) = .error x) : e = .error x ∨ ∃ a, e = .ok a ∧ f a = .error x := by
  cases e with
  | error y =>
    cases h
    exact .inl rfl
  | ok a => exact .inr ⟨a, rfl, h⟩

/-- C110: the script ends unless some text has digits or points that are no number; then it raises ValueError. -/
theorem C110_ends (climate : List ClimateRow) (stations : List (ℕ × Option (List Char))) :
    ((∃ rows, noaaClean climate stations = .ok rows) ↔ ∀ c ∈ climate, ∀ s ∈ c.values, Nothing s ∨ ∃ v, Written (digitsAndPoints s) v) ∧
      ∀ x, noaaClean climate stations = .error x → x = .valueError := by
  refine ⟨⟨?_, fun h => ?_⟩, fun x h => ?_⟩
  · rintro ⟨rows, h⟩ c hc s hs
    have := (cleanNumber_ok s).1 (clean_inv h c hc s hs)
    rwa [kept_none] at this
  · exact ⟨_, clean_ok fun c hc s hs => (cleanNumber_ok s).2 (by rw [kept_none]; exact h c hc s hs)⟩
  · unfold noaaClean at h
    simp only at h
    rcases bind_fails h with h | ⟨_, -, h⟩
    · obtain ⟨r, -, hr⟩ := mapExcept_fails h
      rcases bind_fails hr with hr | ⟨_, -, hr⟩
      · obtain ⟨s, -, hs⟩ := mapExcept_fails hr
        rcases cleanNumber_cases s with ⟨-, h2⟩ | ⟨_, -, h2⟩ | ⟨-, -, h2⟩ <;> rw [h2] at hs <;> cases hs
        rfl
      · cases hr
    · cases h

theorem tiny_location : noaaLocation "40*47'N 073*58'W".toList = some (40 + 47 / 60, -(73 + 58 / 60)) := by
  rw [C110_location]
  refine .inr ⟨(dms_fails _).1 (by decide), .inl ⟨"40".toList, "*".toList, "47".toList, "'".toList, 'N', " ".toList, "073".toList, "*".toList, "58".toList, "'".toList, 'W', [], by decide,
    by simp [Numeral, IsDigit], by simp [Numeral, IsDigit], by simp [Numeral, IsDigit], by simp [Numeral, IsDigit], by simp, by simp [NoDigit, IsDigit], by simp, by simp [NoDigit, IsDigit],
    by simp, by simp [NoDigit, IsDigit], by simp, by simp [NoDigit, IsDigit], .inl rfl, .inr rfl, by simp, by simp [IsWord, IsDigit], fun u v e _ c hc => ?_, ?_, ?_⟩⟩
  · rw [List.nil_eq_append_iff] at e
    rw [e.1] at hc
    cases hc
  · simp [hemisphere, degrees, decimal, Finset.sum_range_succ]
    norm_num
  · simp [hemisphere, degrees, decimal, Finset.sum_range_succ]
    norm_num

theorem written_25 : Written "2.5".toList 2.5 :=
  .inr ⟨"2".toList, "5".toList, by decide, by simp [IsDigit], by simp [IsDigit], .inl (by simp), by simp [decimal]; norm_num⟩

theorem recorded_25 : Notes "2.5s".toList 2.5 := ⟨[], "2.5".toList, "s".toList, 2.5, by decide, written_25, by simp [IsDigit], by simp⟩

theorem recorded_minus : Notes "-2.5".toList (-2.5) := ⟨"-".toList, "2.5".toList, [], 2.5, by decide, written_25, by simp [IsDigit], by simp⟩

theorem one_value {t : List Char} {v : ℝ} (h : Written (digitsAndPoints t) v) (l : List Char) :
    noaaClean [⟨3, [t]⟩] [(7, none), (3, some l)] = .ok [⟨3, [v], noaaLocation l⟩] := by
  have h1 := (cleanNumber_some t v).2 h
  rw [clean_ok (fun c hc s hs => by
    rw [List.mem_singleton.1 hc] at hs
    rw [List.mem_singleton.1 hs]
    exact ⟨_, h1⟩)]
  have hm : ([t].map numberOf).mapM id = some [v] := (numbers_iff _ _).2 (.cons h .nil)
  simp only [List.flatMap_cons, List.flatMap_nil, List.append_nil]
  rw [hm]
  simp [locationsOf]

/-- the hypotheses of `C110_rows_partial` can be met: a value with a flag, and a station with and one without location -/
example : ∃ rows, noaaClean [⟨3, ["2.5s".toList]⟩] [(7, none), (3, some "40*47'N 073*58'W".toList)] = .ok rows ∧ rows = [⟨3, [2.5], some (40 + 47 / 60, -(73 + 58 / 60))⟩] := by
  have h := recorded_abs recorded_25
  rw [abs_of_nonneg (by norm_num)] at h
  refine ⟨_, one_value h _, ?_⟩
  rw [tiny_location]

/-- C110 fails: a temperature of -2.5 degrees is exported as 2.5 degrees -/
theorem C110_violated : Notes "-2.5".toList (-2.5) ∧
    noaaClean [⟨3, ["-2.5".toList]⟩] [(7, none), (3, some "40*47'N 073*58'W".toList)] = .ok [⟨3, [2.5], some (40 + 47 / 60, -(73 + 58 / 60))⟩] := by
  have h := recorded_abs recorded_minus
  rw [abs_neg, abs_of_nonneg (by norm_num)] at h
  refine ⟨recorded_minus, ?_⟩
  rw [one_value h, tiny_location]

/-- C110, signs: no exported value is negative, and what was recorded is exported without its sign -/
theorem C110_unsigned (climate : List ClimateRow) (stations : List (ℕ × Option (List Char))) (rows : List NoaaRow) (h : noaaClean climate stations = .ok rows) :
    (∀ r ∈ rows, ∀ v ∈ r.values, 0 ≤ v) ∧ ∀ c ∈ climate, ∀ vs, List.Forall₂ Notes c.values vs → ∀ l, (c.wban, some l) ∈ stations →
      (⟨c.wban, vs.map fun v => |v|, noaaLocation l⟩ : NoaaRow) ∈ rows := by
  rw [clean_ok (clean_inv h)] at h
  cases h
  constructor
  · intro r hr v hv
    obtain ⟨c, -, hr⟩ := List.mem_flatMap.1 hr
    cases hm : (c.values.map numberOf).mapM id with
    | none =>
      rw [hm] at hr
      cases hr
    | some vs =>
      rw [hm] at hr
      obtain ⟨l, -, rfl⟩ := List.mem_map.1 hr
      obtain ⟨s, -, hs⟩ := forall₂_mem_right ((numbers_iff _ _).1 hm) hv
      exact written_nonneg hs
  · intro c hc vs hvs l hl
    have hm : (c.values.map numberOf).mapM id = some (vs.map fun v => |v|) := by
      rw [numbers_iff]
      generalize c.values = texts at hvs
      induction hvs with
      | nil => exact .nil
      | cons h1 _ ih => exact .cons (recorded_abs h1) ih
    refine List.mem_flatMap.2 ⟨c, hc, ?_⟩
    rw [hm]
    refine List.mem_map.2 ⟨l, ?_, rfl⟩
    unfold locationsOf
    exact List.mem_filterMap.2 ⟨_, hl, by simp⟩

/-- A row without position is exported: the latitude is given in degrees and minutes, the longitude with seconds as well, which neither form allows. -/
theorem C110_unlocated : noaaClean [⟨3, ["2.5".toList]⟩] [(7, none), (3, some "40*47'N 073*58'15\"W".toList)] = .ok [⟨3, [2.5], none⟩] := by
  rw [one_value (by rw [kept_written written_25]; exact written_25)]
  congr 3

end Verif
