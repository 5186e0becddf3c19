import Verif.Spec.BenchCogp
import Verif.Proofs.Noaa
import Verif.Proofs.Interp
import Mathlib.Tactic.NormNum

/-! C124: results of the other program. -/

namespace Verif

/-! ### looking for a label -/

theorem findFrom_here {s t : List Char} (hs : s ≠ []) (h : s <+: t) : findFrom s t = some t := by
  cases t with
  | nil => exact absurd (List.prefix_nil.1 h) hs
  | cons c t =>
    unfold findFrom
    rw [if_pos (List.isPrefixOf_iff_prefix.2 h)]

theorem findFrom_later {s t : List Char} (hs : s ≠ []) : ∀ (pre : List Char), NotBefore s (pre ++ t) pre.length → s <+: t → findFrom s (pre ++ t) = some t
  | [], _, h => findFrom_here hs h
  | c :: pre, hn, h => by
    show findFrom s (c :: (pre ++ t)) = _
    have hn0 : ¬ s.isPrefixOf (c :: (pre ++ t)) = true := fun e => hn 0 (by simp) (List.isPrefixOf_iff_prefix.1 e)
    rw [findFrom, if_neg hn0]
    exact findFrom_later hs pre (fun j hj e => hn (j + 1) (by simpa using hj) (by simpa using e)) h

theorem findFrom_skip {s : List Char} : ∀ (p t : List Char), (∀ c ∈ p, c ≠ 'm') → findFrom ('m' :: s) (p ++ t) = findFrom ('m' :: s) t
  | [], _, _ => rfl
  | c :: p, t, h => by
    show findFrom ('m' :: s) (c :: (p ++ t)) = _
    have hn : ¬ ('m' :: s).isPrefixOf (c :: (p ++ t)) = true := fun e => h c (by simp) (List.cons_prefix_cons.1 (List.isPrefixOf_iff_prefix.1 e)).1.symm
    rw [findFrom, if_neg hn, findFrom_skip p t fun x hx => h x (List.mem_cons_of_mem _ hx)]

/-! ### the pattern -/

theorem pattern_match {l a g b t : List Char} (hl : NoDigit l) (ha : ∃ c v, a = c :: v ∧ IsDigit c) (ha' : ∀ c ∈ a, reNumeral.cls c = true)
    (hg : g ≠ []) (hg' : ∀ c ∈ g, reSpaces.cls c = true) (hb : ∃ c v, b = c :: v ∧ IsDigit c) (hb' : ∀ c ∈ b, reNumeral.cls c = true)
    (ht : ∀ c v, t = c :: v → reNumeral.cls c = false) : reMatch cogpPattern (l ++ (a ++ (g ++ (b ++ t)))) = some [a, b] := by
  have digit_not_space : ∀ c, IsDigit c → reSpaces.cls c = false := by
    intro c hc
    by_contra h
    have h : reSpaces.cls c = true := by simpa using h
    simp only [reSpaces, Bool.or_eq_true, beq_iff_eq] at h
    rcases h with ((((rfl | rfl) | rfl) | rfl) | rfl) | rfl <;> exact absurd hc (by unfold IsDigit; decide)
  have space_not_numeral : ∀ c, reSpaces.cls c = true → reNumeral.cls c = false := by
    intro c h
    simp only [reSpaces, Bool.or_eq_true, beq_iff_eq] at h
    rcases h with ((((rfl | rfl) | rfl) | rfl) | rfl) | rfl <;> decide
  have m4 : reMatch [reNumeral] (b ++ t) = some [b] := match_run (it := reNumeral) rfl hb' (Nat.zero_le _) ht rfl
  have m3 : reMatch [reSpaces, reNumeral] (g ++ (b ++ t)) = some [b] := by
    refine match_run (it := reSpaces) rfl hg' (Nat.zero_le _) ?_ m4
    obtain ⟨c, v, rfl, hc⟩ := hb
    intro c' v' e
    obtain rfl : c = c' := (List.cons.inj e).1
    exact digit_not_space _ hc
  have m2 : reMatch [reNumeral, reSpaces, reNumeral] (a ++ (g ++ (b ++ t))) = some [a, b] := by
    refine match_run (it := reNumeral) rfl ha' (Nat.zero_le _) ?_ m3
    intro c' v' e
    cases g with
    | nil => exact absurd rfl hg
    | cons c g =>
      obtain rfl : c = c' := (List.cons.inj e).1
      exact space_not_numeral _ (hg' _ (by simp))
  refine match_run (it := reGap) rfl (fun c hc => (nondigit_iff c).2 (hl c hc)) (Nat.zero_le _) ?_ m2
  obtain ⟨c, v, rfl, hc⟩ := ha
  intro c' v' e
  obtain rfl : c = c' := (List.cons.inj e).1
  show (!reDigit c) = false
  rw [(reDigit_iff c).2 hc]
  rfl

/-! ### numbers -/

theorem digit_ne {c x : Char} (h : IsDigit c) (hx : ¬ IsDigit x) : c ≠ x := fun e => hx (e ▸ h)

theorem Printed.text_mem {p : Printed} (h : p.Valid) : ∀ c ∈ p.text, IsDigit c ∨ c = '.' ∨ c = 'e' ∨ c = '-' ∨ c = '+' := by
  obtain ⟨whole, frac, exp⟩ := p
  obtain ⟨h1, h2, h3⟩ := h
  intro c hc
  unfold Printed.text at hc
  simp only [List.mem_append] at hc
  rcases hc with hc | hc | hc
  · exact .inl (h1.2 c hc)
  · split_ifs at hc
    · cases hc
    · rcases List.mem_cons.1 hc with rfl | hc
      · exact .inr (.inl rfl)
      · exact .inl (h2 c hc)
  · cases exp with
    | none => cases hc
    | some e =>
      obtain ⟨neg, ds⟩ := e
      simp only [List.mem_cons] at hc
      rcases hc with rfl | rfl | hc
      · exact .inr (.inr (.inl rfl))
      · cases neg <;> simp
      · exact .inl ((h3 neg ds rfl).2 c hc)

theorem Printed.text_head {p : Printed} (h : p.Valid) : ∃ c v, p.text = c :: v ∧ IsDigit c := by
  obtain ⟨whole, frac, exp⟩ := p
  obtain ⟨⟨h0, h1⟩, -, -⟩ := h
  obtain ⟨c, v, rfl⟩ := List.exists_cons_of_ne_nil h0
  exact ⟨c, _, rfl, h1 c (by simp)⟩

theorem Printed.text_numeral {p : Printed} (h : p.Valid) : ∀ c ∈ p.text, reNumeral.cls c = true := by
  intro c hc
  simp only [reNumeral, Bool.or_eq_true, beq_iff_eq]
  rcases p.text_mem h c hc with h | h | h | h | h
  · exact .inr ((reDigit_iff c).2 h)
  all_goals simp [h]

theorem signOf_digit {c : Char} {v : List Char} (h : IsDigit c) : signOf (c :: v) = (false, c :: v) := by
  have h1 : c ≠ '-' := digit_ne h (by unfold IsDigit; decide)
  have h2 : c ≠ '+' := digit_ne h (by unfold IsDigit; decide)
  unfold signOf
  split
  · rename_i e; exact absurd (List.cons.inj e).1 h1
  · rename_i e; exact absurd (List.cons.inj e).1 h2
  · rfl

theorem takeWhile_stop {p : Char → Bool} {a b : List Char} (ha : ∀ c ∈ a, p c = true) (hb : ∀ c v, b = c :: v → p c = false) :
    (a ++ b).takeWhile p = a ∧ (a ++ b).dropWhile p = b := by
  rw [List.takeWhile_append_of_pos ha, List.dropWhile_append_of_pos ha]
  cases b with
  | nil => simp
  | cons c v => simp [hb c v rfl]

theorem all_digits {w : List Char} (h : ∀ c ∈ w, IsDigit c) : w.all reDigit = true := List.all_eq_true.2 fun c hc => (reDigit_iff c).2 (h c hc)

theorem mantissaOf_text {whole frac : List Char} (h1 : Numeral whole) (h2 : ∀ c ∈ frac, IsDigit c) :
    mantissaOf (whole ++ if frac = [] then [] else '.' :: frac) = .ok (decimal whole + decimal frac / 10 ^ frac.length) := by
  have hd : ¬ IsDigit '.' := by unfold IsDigit; decide
  have key : (whole ++ if frac = [] then [] else '.' :: frac).takeWhile (· ≠ '.') = whole ∧ ((whole ++ if frac = [] then [] else '.' :: frac).dropWhile (· ≠ '.')).drop 1 = frac := by
    have := takeWhile_stop (p := (· ≠ '.')) (a := whole) (b := if frac = [] then [] else '.' :: frac) (fun c hc => by simpa using digit_ne (h1.2 c hc) hd)
      (fun c v e => by
        split_ifs at e
        obtain rfl : '.' = c := (List.cons.inj e).1
        simp)
    rw [this.1, this.2]
    refine ⟨rfl, ?_⟩
    split_ifs with h
    · rw [h]; rfl
    · rfl
  unfold mantissaOf
  simp only
  rw [key.1, key.2, if_pos ⟨all_digits h1.2, all_digits h2, fun e => h1.1 e.1⟩, pyDigits_eq, pyDigits_eq]

theorem floatText_printed {p : Printed} (h : p.Valid) : floatText p.text = .ok p.value := by
  obtain ⟨c, v, hcv, hc⟩ := p.text_head h
  have hsign : signOf p.text = (false, p.text) := by rw [hcv, signOf_digit hc]
  obtain ⟨whole, frac, exp⟩ := p
  obtain ⟨h1, h2, h3⟩ := h
  have hd : ¬ IsDigit 'e' := by unfold IsDigit; decide
  have noe : ∀ x ∈ whole ++ (if frac = [] then [] else '.' :: frac), (decide (x ≠ 'e')) = true := by
    intro x hx
    simp only [decide_eq_true_eq]
    rcases List.mem_append.1 hx with hx | hx
    · exact digit_ne (h1.2 x hx) hd
    · split_ifs at hx
      · cases hx
      · rcases List.mem_cons.1 hx with rfl | hx
        · decide
        · exact digit_ne (h2 x hx) hd
  unfold floatText
  rw [hsign]
  simp only [Printed.text]
  cases exp with
  | none =>
    have hs := takeWhile_stop (b := []) noe (fun c v e => by cases e)
    simp only [← List.append_assoc]
    rw [hs.1, hs.2, mantissaOf_text h1 h2]
    simp [Printed.value, Bind.bind, Except.bind, Pure.pure, Except.pure]
  | some e =>
    obtain ⟨neg, ds⟩ := e
    have h3 := h3 neg ds rfl
    have hs := takeWhile_stop (b := 'e' :: (if neg then '-' else '+') :: ds) noe (fun c v e => by
      obtain rfl : 'e' = c := (List.cons.inj e).1
      simp)
    simp only [← List.append_assoc]
    rw [hs.1, hs.2, mantissaOf_text h1 h2]
    have hx : exponentOf ((if neg then '-' else '+') :: ds) = .ok ((10 : ℝ) ^ (if neg then -decimal ds else decimal ds)) := by
      have hsg : signOf ((if neg then '-' else '+') :: ds) = (neg, ds) := by cases neg <;> rfl
      unfold exponentOf
      rw [hsg, if_pos ⟨all_digits h3.2, h3.1⟩]
      simp only [pyDigits_eq]
    simp [hx, Printed.value, Bind.bind, Except.bind, Pure.pure, Except.pure]

/-! ### the measures -/

theorem blank_space {w : List Char} (h : Blank w) : ∀ c ∈ w, reSpaces.cls c = true := by
  intro c hc
  rcases h.2 c hc with rfl | rfl <;> decide

theorem blank_nodigit {w : List Char} (h : Blank w) : NoDigit w := by
  intro c hc
  rcases h.2 c hc with rfl | rfl <;> (unfold IsDigit; decide)

theorem minus_nodigit (neg : Bool) : NoDigit (minusSign neg) := by
  intro c hc
  cases neg
  · cases hc
  · obtain rfl : c = '-' := by simpa [minusSign] using hc
    unfold IsDigit; decide

theorem blank_stop {w t : List Char} (h : Blank w) : ∀ c v, w ++ t = c :: v → reNumeral.cls c = false := by
  intro c v e
  obtain ⟨x, w, rfl⟩ := List.exists_cons_of_ne_nil h.1
  obtain rfl : x = c := (List.cons.inj e).1
  rcases h.2 x (by simp) with rfl | rfl <;> decide

/-- the numbers that are found: the first two after the text `l` without digits -/
theorem stat_found {label ending l : List Char} {m : Measure} (hm : m.Valid) {t : List Char} (hl : NoDigit l)
    (hf : fromFound label ending = l ++ (m.mean.text ++ (m.between ++ (m.stderr.text ++ (m.after ++ t))))) :
    cogpStat label ending = .ok ((m.mean.value, m.stderr.value), fromFound label ending) := by
  obtain ⟨h1, h2, h3, h4, h5⟩ := hm
  have := pattern_match (t := m.after ++ t) hl (m.mean.text_head h1) (m.mean.text_numeral h1) h4.1 (blank_space h4) (m.stderr.text_head h2) (m.stderr.text_numeral h2) (blank_stop h5)
  unfold cogpStat
  rw [hf, this]
  simp only [floatText_printed h1, floatText_printed h2]
  rfl

theorem stat_text {label : String} {ending : List Char} {m : Measure} (hm : m.Valid) {t : List Char} (hl : NoDigit ("mean/stderr " ++ label).toList)
    (hf : fromFound ("mean/stderr " ++ label).toList ending = m.text label ++ t) :
    cogpStat ("mean/stderr " ++ label).toList ending = .ok ((m.mean.value, m.stderr.value), m.text label ++ t) := by
  have := stat_found (l := ("mean/stderr " ++ label).toList ++ (m.before ++ minusSign m.neg)) (label := ("mean/stderr " ++ label).toList) (ending := ending) hm (t := t)
    (fun c hc => by
      rcases List.mem_append.1 hc with hc | hc
      · exact hl c hc
      · rcases List.mem_append.1 hc with hc | hc
        · exact blank_nodigit hm.2.2.1 c hc
        · exact minus_nodigit _ c hc)
    (by rw [hf]; unfold Measure.text; simp only [List.append_assoc])
  rw [this, hf]

theorem Measure.rest_no_m {m : Measure} (hm : m.Valid) : ∀ c ∈ m.before ++ (minusSign m.neg ++ (m.mean.text ++ (m.between ++ (m.stderr.text ++ m.after)))), c ≠ 'm' := by
  obtain ⟨h1, h2, h3, h4, h5⟩ := hm
  have blank : ∀ w, Blank w → ∀ c ∈ w, c ≠ 'm' := by
    intro w h c hc
    rcases h.2 c hc with rfl | rfl <;> decide
  have num : ∀ p : Printed, p.Valid → ∀ c ∈ p.text, c ≠ 'm' := by
    intro p h c hc
    rcases p.text_mem h c hc with h | h | h | h | h
    · exact digit_ne h (by unfold IsDigit; decide)
    all_goals rw [h]; decide
  have minus : ∀ c ∈ minusSign m.neg, c ≠ 'm' := by
    intro c hc
    cases hn : m.neg
    · rw [hn] at hc; cases hc
    · rw [hn] at hc
      obtain rfl : c = '-' := by simpa [minusSign] using hc
      decide
  intro c hc
  simp only [List.mem_append] at hc
  rcases hc with hc | hc | hc | hc | hc | hc
  exacts [blank _ h3 c hc, minus c hc, num _ h1 c hc, blank _ h4 c hc, num _ h2 c hc, blank _ h5 c hc]

theorem found_smses {m : Measure} (hm : m.Valid) (t : List Char) :
    fromFound "mean/stderr smses".toList (m.text "times" ++ ("mean/stderr smses".toList ++ t)) = "mean/stderr smses".toList ++ t := by
  have e : findFrom "mean/stderr smses".toList (m.text "times" ++ ("mean/stderr smses".toList ++ t)) = some ("mean/stderr smses".toList ++ t) := by
    have h1 : m.text "times" ++ ("mean/stderr smses".toList ++ t) = "mean/stderr times".toList ++
        ((m.before ++ (minusSign m.neg ++ (m.mean.text ++ (m.between ++ (m.stderr.text ++ m.after))))) ++ ("mean/stderr smses".toList ++ t)) := by
      unfold Measure.text
      rw [List.append_assoc]
      rfl
    have h2 : ∀ x, findFrom "mean/stderr smses".toList ("mean/stderr times".toList ++ x) = findFrom "mean/stderr smses".toList x := by
      intro x
      simp [findFrom, List.isPrefixOf]
    have h3 := findFrom_skip (s := "ean/stderr smses".toList) _ ("mean/stderr smses".toList ++ t) (m.rest_no_m hm)
    rw [h1, h2]
    exact h3.trans (findFrom_here (by decide) (List.prefix_append _ _))
  unfold fromFound
  rw [e]
  rfl

theorem found_nlpds {m : Measure} (hm : m.Valid) (t : List Char) :
    fromFound "mean/stderr nlpds".toList (m.text "smses" ++ ("mean/stderr nlpds".toList ++ t)) = "mean/stderr nlpds".toList ++ t := by
  have e : findFrom "mean/stderr nlpds".toList (m.text "smses" ++ ("mean/stderr nlpds".toList ++ t)) = some ("mean/stderr nlpds".toList ++ t) := by
    have h1 : m.text "smses" ++ ("mean/stderr nlpds".toList ++ t) = "mean/stderr smses".toList ++
        ((m.before ++ (minusSign m.neg ++ (m.mean.text ++ (m.between ++ (m.stderr.text ++ m.after))))) ++ ("mean/stderr nlpds".toList ++ t)) := by
      unfold Measure.text
      rw [List.append_assoc]
      rfl
    have h2 : ∀ x, findFrom "mean/stderr nlpds".toList ("mean/stderr smses".toList ++ x) = findFrom "mean/stderr nlpds".toList x := by
      intro x
      simp [findFrom, List.isPrefixOf]
    have h3 := findFrom_skip (s := "ean/stderr nlpds".toList) _ ("mean/stderr nlpds".toList ++ t) (m.rest_no_m hm)
    rw [h1, h2]
    exact h3.trans (findFrom_here (by decide) (List.prefix_append _ _))
  unfold fromFound
  rw [e]
  rfl

theorem label_nodigit : NoDigit "mean/stderr times".toList ∧ NoDigit "mean/stderr smses".toList ∧ NoDigit "mean/stderr nlpds".toList := by
  have key : ∀ w : List Char, w.all (fun c => !reDigit c) = true → NoDigit w := fun w h c hc => (nondigit_iff c).1 (List.all_eq_true.1 h c hc)
  exact ⟨key _ (by decide), key _ (by decide), key _ (by decide)⟩

theorem found_times {pre x : List Char} (h : NotBefore "mean/stderr times".toList (pre ++ ("mean/stderr times".toList ++ x)) pre.length) :
    fromFound "mean/stderr times".toList (pre ++ ("mean/stderr times".toList ++ x)) = "mean/stderr times".toList ++ x := by
  unfold fromFound
  rw [findFrom_later (by decide) pre h (List.prefix_append _ _)]
  rfl

/-- what is read: the numbers without the signs of the means -/
theorem C124_magnitudes (pre post : List Char) (t s n : Measure) (ht : t.Valid) (hs : s.Valid) (hn : n.Valid)
    (hpre : NotBefore "mean/stderr times".toList (pre ++ (t.text "times" ++ (s.text "smses" ++ (n.text "nlpds" ++ post)))) pre.length) :
    cogpStats (pre ++ (t.text "times" ++ (s.text "smses" ++ (n.text "nlpds" ++ post)))) =
      .ok [(t.mean.value, t.stderr.value), (s.mean.value, s.stderr.value), (n.mean.value, n.stderr.value)] := by
  have split : ∀ (l : String) (m : Measure) (x : List Char), ∃ y, m.text l ++ x = ("mean/stderr " ++ l).toList ++ y := by
    intro l m x
    exact ⟨_, by unfold Measure.text; rw [List.append_assoc]⟩
  obtain ⟨y1, e1⟩ := split "times" t (s.text "smses" ++ (n.text "nlpds" ++ post))
  obtain ⟨y2, e2⟩ := split "smses" s (n.text "nlpds" ++ post)
  obtain ⟨y3, e3⟩ := split "nlpds" n post
  have e1' : t.text "times" ++ (s.text "smses" ++ (n.text "nlpds" ++ post)) = "mean/stderr times".toList ++ y1 := e1
  have e2' : s.text "smses" ++ (n.text "nlpds" ++ post) = "mean/stderr smses".toList ++ y2 := e2
  have e3' : n.text "nlpds" ++ post = "mean/stderr nlpds".toList ++ y3 := e3
  have f1 : fromFound "mean/stderr times".toList (pre ++ (t.text "times" ++ (s.text "smses" ++ (n.text "nlpds" ++ post)))) =
      t.text "times" ++ (s.text "smses" ++ (n.text "nlpds" ++ post)) := by
    rw [e1'] at hpre ⊢
    exact found_times hpre
  have f2 : fromFound "mean/stderr smses".toList (t.text "times" ++ (s.text "smses" ++ (n.text "nlpds" ++ post))) = s.text "smses" ++ (n.text "nlpds" ++ post) := by
    rw [e2']
    exact found_smses ht _
  have f3 : fromFound "mean/stderr nlpds".toList (s.text "smses" ++ (n.text "nlpds" ++ post)) = n.text "nlpds" ++ post := by
    rw [e3']
    exact found_nlpds hs _
  have c1 := stat_text (label := "times") ht label_nodigit.1 f1
  have c2 := stat_text (label := "smses") hs label_nodigit.2.1 f2
  have c3 := stat_text (label := "nlpds") hn label_nodigit.2.2 f3
  have c1' : cogpStat "mean/stderr times".toList _ = _ := c1
  have c2' : cogpStat "mean/stderr smses".toList _ = _ := c2
  have c3' : cogpStat "mean/stderr nlpds".toList _ = _ := c3
  unfold cogpStats
  rw [c1']
  simp only [ok_bind]
  rw [c2']
  simp only [ok_bind]
  rw [c3']
  rfl

/-- C124, what holds: if COGP printed means that are not negative, whatever it printed before and afterwards, then the numbers used are the printed ones.
Missing: negative means (`C124_sign_lost`) and results that are not numbers (`C124_not_number`). -/
theorem C124_numbers_partial (pre post : List Char) (t s n : Measure) (ht : t.Valid) (hs : s.Valid) (hn : n.Valid)
    (hpre : NotBefore "mean/stderr times".toList (pre ++ (t.text "times" ++ (s.text "smses" ++ (n.text "nlpds" ++ post)))) pre.length)
    (ht' : t.neg = false) (hs' : s.neg = false) (hn' : n.neg = false) :
    cogpStats (pre ++ (t.text "times" ++ (s.text "smses" ++ (n.text "nlpds" ++ post)))) =
      .ok [(signedValue t.neg t.mean, t.stderr.value), (signedValue s.neg s.mean, s.stderr.value), (signedValue n.neg n.mean, n.stderr.value)] := by
  rw [C124_magnitudes pre post t s n ht hs hn hpre, ht', hs', hn']
  rfl

/-- C124 is false of the code: a negative mean NLPD is used without its sign, so that it looks worse than it is. -/
theorem C124_sign_lost (pre post : List Char) (t s n : Measure) (ht : t.Valid) (hs : s.Valid) (hn : n.Valid)
    (hpre : NotBefore "mean/stderr times".toList (pre ++ (t.text "times" ++ (s.text "smses" ++ (n.text "nlpds" ++ post)))) pre.length) (hn' : n.neg = true) :
    ∃ a b, cogpStats (pre ++ (t.text "times" ++ (s.text "smses" ++ (n.text "nlpds" ++ post)))) = .ok [a, b, (-signedValue n.neg n.mean, n.stderr.value)] := by
  have h := C124_magnitudes pre post t s n ht hs hn hpre
  rw [show n.mean.value = -signedValue n.neg n.mean by rw [hn']; simp [signedValue]] at h
  exact ⟨_, _, h⟩

/-- C124 is false of the code: if the SMSE are not numbers then the numbers of the NLPD are used in their place. -/
theorem C124_not_number (pre post g₁ g₂ g₃ : List Char) (t n : Measure) (ht : t.Valid) (hn : n.Valid) (h₁ : Blank g₁) (h₂ : Blank g₂) (h₃ : Blank g₃)
    (hpre : NotBefore "mean/stderr times".toList
      (pre ++ (t.text "times" ++ ("mean/stderr smses".toList ++ (g₁ ++ ("NaN".toList ++ (g₂ ++ ("NaN".toList ++ (g₃ ++ (n.text "nlpds" ++ post))))))))) pre.length) :
    cogpStats (pre ++ (t.text "times" ++ ("mean/stderr smses".toList ++ (g₁ ++ ("NaN".toList ++ (g₂ ++ ("NaN".toList ++ (g₃ ++ (n.text "nlpds" ++ post))))))))) =
      .ok [(t.mean.value, t.stderr.value), (n.mean.value, n.stderr.value), (n.mean.value, n.stderr.value)] := by
  obtain ⟨y1, e1⟩ : ∃ y, t.text "times" ++ ("mean/stderr smses".toList ++ (g₁ ++ ("NaN".toList ++ (g₂ ++ ("NaN".toList ++ (g₃ ++ (n.text "nlpds" ++ post))))))) =
    "mean/stderr times".toList ++ y := ⟨_, by unfold Measure.text; rw [List.append_assoc]; rfl⟩
  have f1 : fromFound "mean/stderr times".toList (pre ++ (t.text "times" ++ ("mean/stderr smses".toList ++ (g₁ ++ ("NaN".toList ++ (g₂ ++ ("NaN".toList ++ (g₃ ++ (n.text "nlpds" ++ post))))))))) =
      t.text "times" ++ ("mean/stderr smses".toList ++ (g₁ ++ ("NaN".toList ++ (g₂ ++ ("NaN".toList ++ (g₃ ++ (n.text "nlpds" ++ post))))))) := by
    rw [e1] at hpre ⊢
    exact found_times hpre
  have f2 := found_smses ht (g₁ ++ ("NaN".toList ++ (g₂ ++ ("NaN".toList ++ (g₃ ++ (n.text "nlpds" ++ post))))))
  have e3 : n.text "nlpds" ++ post = "mean/stderr nlpds".toList ++ (n.before ++ (minusSign n.neg ++ (n.mean.text ++ (n.between ++ (n.stderr.text ++ (n.after ++ post)))))) := by
    unfold Measure.text
    simp only [List.append_assoc]
    rfl
  have noM : ∀ c ∈ g₁ ++ ("NaN".toList ++ (g₂ ++ ("NaN".toList ++ g₃))), c ≠ 'm' := by
    have blank : ∀ w, Blank w → ∀ c ∈ w, c ≠ 'm' := by
      intro w h c hc
      rcases h.2 c hc with rfl | rfl <;> decide
    have nan : ∀ c ∈ "NaN".toList, c ≠ 'm' := by decide
    intro c hc
    simp only [List.mem_append] at hc
    rcases hc with hc | hc | hc | hc | hc
    exacts [blank _ h₁ c hc, nan c hc, blank _ h₂ c hc, nan c hc, blank _ h₃ c hc]
  have noD : NoDigit (g₁ ++ ("NaN".toList ++ (g₂ ++ ("NaN".toList ++ g₃)))) := by
    have nan : NoDigit "NaN".toList := fun c hc => (nondigit_iff c).1 (List.all_eq_true.1 (by decide : "NaN".toList.all (fun c => !reDigit c) = true) c hc)
    intro c hc
    simp only [List.mem_append] at hc
    rcases hc with hc | hc | hc | hc | hc
    exacts [blank_nodigit h₁ c hc, nan c hc, blank_nodigit h₂ c hc, nan c hc, blank_nodigit h₃ c hc]
  have f3 : fromFound "mean/stderr nlpds".toList ("mean/stderr smses".toList ++ (g₁ ++ ("NaN".toList ++ (g₂ ++ ("NaN".toList ++ (g₃ ++ (n.text "nlpds" ++ post))))))) =
      n.text "nlpds" ++ post := by
    have h2 : ∀ x, findFrom "mean/stderr nlpds".toList ("mean/stderr smses".toList ++ x) = findFrom "mean/stderr nlpds".toList x := by
      intro x
      simp [findFrom, List.isPrefixOf]
    have h3 := findFrom_skip (s := "ean/stderr nlpds".toList) _ (n.text "nlpds" ++ post) noM
    simp only [List.append_assoc] at h3
    unfold fromFound
    rw [h2]
    refine (congrArg (fun o => Option.getD o _) (h3.trans (findFrom_here (by decide) ?_))).trans rfl
    rw [e3]
    exact List.prefix_append _ _
  have c1 := stat_text (label := "times") ht label_nodigit.1 f1
  have c1' : cogpStat "mean/stderr times".toList _ = _ := c1
  have c2' := stat_found (label := "mean/stderr smses".toList) (m := n) (t := post)
    (l := "mean/stderr smses".toList ++ ((g₁ ++ ("NaN".toList ++ (g₂ ++ ("NaN".toList ++ g₃)))) ++ ("mean/stderr nlpds".toList ++ (n.before ++ minusSign n.neg)))) hn
    (fun c hc => by
      simp only [List.mem_append] at hc
      rcases hc with hc | hc | hc | hc | hc
      · exact label_nodigit.2.1 c hc
      · exact noD c (by simpa only [List.mem_append] using hc)
      · exact label_nodigit.2.2 c hc
      · exact blank_nodigit hn.2.2.1 c hc
      · exact minus_nodigit _ c hc)
    (f2.trans (by rw [e3]; simp only [List.append_assoc]))
  have c3 := stat_text (label := "nlpds") hn label_nodigit.2.2 f3
  have c3' : cogpStat "mean/stderr nlpds".toList _ = _ := c3
  unfold cogpStats
  rw [c1']
  simp only [ok_bind]
  rw [c2', f2]
  simp only [ok_bind]
  rw [c3']
  rfl

/-- C124: if COGP failed and did not print the times, the call raises. -/
theorem C124_no_output (mout : List Char) (h : ∀ j ≤ mout.length, ¬ "mean/stderr times".toList <+: mout.drop j) : cogpStats mout = .error .valueError := by
  have none : ∀ (s : List Char), s ≠ [] → ∀ t : List Char, (∀ j ≤ t.length, ¬ s <+: t.drop j) → findFrom s t = none := by
    intro s hs t
    induction t with
    | nil => intro _; rw [findFrom, if_neg hs]
    | cons c t ih =>
      intro h
      have h0 : ¬ s.isPrefixOf (c :: t) = true := fun e => h 0 (Nat.zero_le _) (List.isPrefixOf_iff_prefix.1 e)
      rw [findFrom, if_neg h0]
      exact ih fun j hj => by simpa using h (j + 1) (by simpa using hj)
  have hempty : floatText [] = .error .valueError := by
    simp [floatText, signOf, mantissaOf, Bind.bind, Except.bind]
  have hf : fromFound "mean/stderr times".toList mout = mout.drop (mout.length - 1) := by
    unfold fromFound
    rw [none _ (by decide) mout h]
    rfl
  have : cogpStat "mean/stderr times".toList mout = .error .valueError := by
    unfold cogpStat
    rw [hf]
    rcases Nat.eq_zero_or_pos mout.length with h0 | h0
    · obtain rfl := List.length_eq_zero_iff.1 h0
      have : reMatch cogpPattern (List.drop (([] : List Char).length - 1) []) = some [[], []] := by decide
      rw [this]
      simp only [hempty]
      rfl
    · obtain ⟨c, hc⟩ : ∃ c, mout.drop (mout.length - 1) = [c] := by
        have hl : (mout.drop (mout.length - 1)).length = 1 := by rw [List.length_drop]; omega
        exact List.length_eq_one_iff.1 hl
      rw [hc]
      by_cases hd : IsDigit c
      · have m2 : reMatch [reSpaces, reNumeral] [] = some [[]] := by decide
        have m1 : reMatch [reNumeral, reSpaces, reNumeral] ([c] ++ []) = some [[c], []] :=
          match_run (it := reNumeral) rfl (fun x hx => by
            obtain rfl : x = c := by simpa using hx
            simp only [reNumeral, Bool.or_eq_true]
            exact .inr ((reDigit_iff x).2 hd)) (Nat.zero_le _) (fun _ _ e => by cases e) m2
        have m0 : reMatch cogpPattern ([] ++ [c]) = some [[c], []] := match_run (it := reGap) rfl (fun x hx => by cases hx) (Nat.zero_le _) (fun x v e => by
          obtain rfl : c = x := (List.cons.inj e).1
          show (!reDigit c) = false
          rw [(reDigit_iff c).2 hd]; rfl) m1
        have m0' : reMatch cogpPattern [c] = some [[c], []] := m0
        rw [m0']
        simp only [hempty]
        cases hx : floatText [c] with
        | error e =>
          have hv : floatText (Printed.text ⟨[c], [], Option.none⟩) = .ok _ := floatText_printed ⟨⟨by simp, fun x hx => by
            obtain rfl : x = c := by simpa using hx
            exact hd⟩, by simp, by simp⟩
          have : Printed.text ⟨[c], [], Option.none⟩ = [c] := rfl
          rw [this, hx] at hv
          cases hv
        | ok v => rfl
      · have m1 : reMatch [reNumeral, reSpaces, reNumeral] [] = some [[], []] := by decide
        have m0 : reMatch cogpPattern ([c] ++ []) = some [[], []] := match_run (it := reGap) rfl (fun x hx => by
          obtain rfl : x = c := by simpa using hx
          exact (nondigit_iff x).2 hd) (Nat.zero_le _) (fun _ _ e => by cases e) m1
        have m0' : reMatch cogpPattern [c] = some [[], []] := m0
        rw [m0']
        simp only [hempty]
        rfl
  unfold cogpStats
  rw [this]
  rfl

/-! ### example -/

/-- `-3.62` is used as `3.62` -/
example : ∃ a b, cogpStats "mean/stderr times\n   96.2\n    1.3\nmean/stderr smses\n    0.26\n   2.7e-02\nmean/stderr nlpds\n   -3.62\n    0.03\n".toList =
    .ok [a, b, (3.62, 0.03)] := by
  have dig : ∀ w : List Char, w.all reDigit = true → ∀ c ∈ w, IsDigit c := fun w h c hc => (reDigit_iff c).1 (List.all_eq_true.1 h c hc)
  have num : ∀ w : List Char, w ≠ [] → w.all reDigit = true → Numeral w := fun w h h' => ⟨h, dig w h'⟩
  have blank : ∀ w : List Char, w.all (fun c => c == ' ' || c == '\n') = true → w ≠ [] → Blank w := fun w h hne => ⟨hne, fun c hc => by simpa using List.all_eq_true.1 h c hc⟩
  have valid : ∀ (neg : Bool) (a b : Printed) (g₁ g₂ g₃ : List Char), a.Valid → b.Valid → Blank g₁ → Blank g₂ → Blank g₃ → Measure.Valid ⟨neg, a, b, g₁, g₂, g₃⟩ :=
    fun _ _ _ _ _ _ h1 h2 h3 h4 h5 => ⟨h1, h2, h3, h4, h5⟩
  have plain : ∀ w f : List Char, Numeral w → (∀ c ∈ f, IsDigit c) → Printed.Valid ⟨w, f, none⟩ := fun w f h1 h2 => ⟨h1, h2, fun _ _ e => by cases e⟩
  have power : ∀ (w f d : List Char) (b : Bool), Numeral w → (∀ c ∈ f, IsDigit c) → Numeral d → Printed.Valid ⟨w, f, some (b, d)⟩ := fun w f d b h1 h2 h3 =>
    ⟨h1, h2, fun _ _ e => by cases e; exact h3⟩
  have h := C124_sign_lost [] [] ⟨false, ⟨['9', '6'], ['2'], none⟩, ⟨['1'], ['3'], none⟩, "\n   ".toList, "\n    ".toList, "\n".toList⟩
    ⟨false, ⟨['0'], ['2', '6'], none⟩, ⟨['2'], ['7'], some (true, ['0', '2'])⟩, "\n    ".toList, "\n   ".toList, "\n".toList⟩
    ⟨true, ⟨['3'], ['6', '2'], none⟩, ⟨['0'], ['0', '3'], none⟩, "\n   ".toList, "\n    ".toList, "\n".toList⟩
    (valid _ _ _ _ _ _ (plain _ _ (num _ (by decide) (by decide)) (dig _ (by decide))) (plain _ _ (num _ (by decide) (by decide)) (dig _ (by decide)))
      (blank _ (by decide) (by decide)) (blank _ (by decide) (by decide)) (blank _ (by decide) (by decide)))
    (valid _ _ _ _ _ _ (plain _ _ (num _ (by decide) (by decide)) (dig _ (by decide))) (power _ _ _ _ (num _ (by decide) (by decide)) (dig _ (by decide)) (num _ (by decide) (by decide)))
      (blank _ (by decide) (by decide)) (blank _ (by decide) (by decide)) (blank _ (by decide) (by decide)))
    (valid _ _ _ _ _ _ (plain _ _ (num _ (by decide) (by decide)) (dig _ (by decide))) (plain _ _ (num _ (by decide) (by decide)) (dig _ (by decide)))
      (blank _ (by decide) (by decide)) (blank _ (by decide) (by decide)) (blank _ (by decide) (by decide)))
    (fun j hj => absurd hj (Nat.not_lt_zero j)) rfl
  obtain ⟨a, b, h⟩ := h
  have v1 : -signedValue true ⟨['3'], ['6', '2'], none⟩ = 3.62 := by
    simp [signedValue, Printed.value, decimal, Finset.sum_range_succ]
    norm_num
  have v2 : Printed.value ⟨['0'], ['0', '3'], none⟩ = 0.03 := by
    simp [Printed.value, decimal, Finset.sum_range_succ]
    norm_num
  refine ⟨a, b, ?_⟩
  rw [← v1, ← v2]
  exact h

end Verif
