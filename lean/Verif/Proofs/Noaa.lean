import Verif.Spec.Noaa
import Mathlib.Tactic.Ring
import Mathlib.Tactic.Linarith
import Mathlib.Algebra.BigOperators.Intervals
import Mathlib.Algebra.BigOperators.Ring.Finset

/-! How the regular expressions of `data/noaa/clean.py` match. -/

namespace Verif

theorem reDigit_iff (c : Char) : reDigit c = true ↔ IsDigit c := by
  unfold reDigit IsDigit
  rw [decide_eq_true_iff]

theorem reNonWord_iff (c : Char) : reNonWord c = true ↔ ¬ IsWord c := by
  unfold reNonWord IsWord
  rw [← reDigit_iff]
  simp only [Bool.not_eq_true', Bool.or_eq_false_iff, decide_eq_false_iff_not]
  cases reDigit c <;> simp [not_or, and_assoc]

/-- the first number, counting down from `n`, with a result -/
theorem findDown {β : Type*} (f : ℕ → Option β) (n lo : ℕ) (b : β) :
    ((List.range (n + 1)).reverse.filter fun k => decide (lo ≤ k)).findSome? f = some b ↔ ∃ k ≤ n, lo ≤ k ∧ f k = some b ∧ ∀ j ≤ n, k < j → f j = none := by
  induction n with
  | zero =>
    by_cases h : lo = 0
    · subst h
      simp
    · simp [h]
  | succ n ih =>
    rw [List.range_succ, List.reverse_append, List.reverse_singleton, List.singleton_append]
    by_cases h : lo ≤ n + 1
    · rw [List.filter_cons_of_pos (by simpa using h), List.findSome?_cons]
      cases hf : f (n + 1) with
      | some c =>
        simp only
        constructor
        · intro e
          exact ⟨n + 1, le_refl _, h, by rw [hf, e], fun j hj hk => by omega⟩
        · rintro ⟨k, hk, _, hb, hn⟩
          by_cases e : k = n + 1
          · rw [← hb, e, hf]
          · rw [hn (n + 1) (le_refl _) (by omega)] at hf
            cases hf
      | none =>
        simp only
        rw [ih]
        constructor
        · rintro ⟨k, hk, hlo, hb, hn⟩
          refine ⟨k, by omega, hlo, hb, fun j hj hkj => ?_⟩
          by_cases e : j = n + 1
          · rw [e, hf]
          · exact hn j (by omega) hkj
        · rintro ⟨k, hk, hlo, hb, hn⟩
          have : k ≠ n + 1 := fun e => by rw [e, hf] at hb; cases hb
          exact ⟨k, by omega, hlo, hb, fun j hj hkj => hn j (by omega) hkj⟩
    · rw [List.filter_cons_of_neg (by simpa using h), ih]
      constructor
      · rintro ⟨k, hk, hlo, _⟩
        omega
      · rintro ⟨k, hk, hlo, _⟩
        omega

theorem takeWhile_run {p : Char → Bool} {a b : List Char} (ha : ∀ c ∈ a, p c = true) : a.length ≤ ((a ++ b).takeWhile p).length := by
  rw [List.takeWhile_append_of_pos ha, List.length_append]
  omega

theorem take_run {p : Char → Bool} {s : List Char} {k : ℕ} (hk : k ≤ (s.takeWhile p).length) : ∀ c ∈ s.take k, p c = true := by
  intro c hc
  have h : s.take k = (s.takeWhile p).take k := by
    conv_lhs => rw [← List.takeWhile_append_dropWhile (p := p) (l := s)]
    rw [List.take_append_of_le_length hk]
  rw [h] at hc
  exact (List.all_eq_true.1 List.all_takeWhile) c (List.mem_of_mem_take hc)

theorem reMatch_eq (it : ReItem) (its : List ReItem) (s : List Char) :
    reMatch (it :: its) s = ((List.range ((if it.many then (s.takeWhile it.cls).length else min 1 (s.takeWhile it.cls).length) + 1)).reverse.filter
      fun k => decide (it.lo ≤ k)).findSome? fun k => (reMatch its (s.drop k)).map fun gs => if it.group then s.take k :: gs else gs := rfl

/-- what a match consists of: the first item takes a piece of the text of its kind, the other items match the remainder and would not match what is left after a longer piece -/
theorem reMatch_cons {it : ReItem} {its : List ReItem} {s : List Char} {gs : List (List Char)} :
    reMatch (it :: its) s = some gs ↔
      ∃ a b gs', s = a ++ b ∧ (∀ c ∈ a, it.cls c = true) ∧ it.lo ≤ a.length ∧ (it.many = false → a.length ≤ 1) ∧ reMatch its b = some gs' ∧
        gs = (if it.group then a :: gs' else gs') ∧
        ∀ a' b', b = a' ++ b' → a' ≠ [] → (∀ c ∈ a', it.cls c = true) → (it.many = false → a.length + a'.length ≤ 1) → reMatch its b' = none := by
  rw [reMatch_eq, findDown]
  constructor
  · rintro ⟨k, hk, hlo, hm, hn⟩
    rw [Option.map_eq_some_iff] at hm
    obtain ⟨gs', hgs', hgs⟩ := hm
    have hrun : k ≤ (s.takeWhile it.cls).length := by
      split_ifs at hk <;> omega
    have hlen : (s.take k).length = k := by
      rw [List.length_take]
      have := (List.takeWhile_prefix it.cls (l := s)).length_le
      omega
    refine ⟨s.take k, s.drop k, gs', (List.take_append_drop k s).symm, take_run hrun, by omega, fun h => ?_, hgs', hgs.symm, fun a' b' e hne ha' hmany => ?_⟩
    · rw [h] at hk
      simp at hk
      omega
    · have hs : s = (s.take k ++ a') ++ b' := by rw [List.append_assoc, ← e, List.take_append_drop]
      have hall : ∀ c ∈ s.take k ++ a', it.cls c = true := by
        intro c hc
        rcases List.mem_append.1 hc with h | h
        · exact take_run hrun c h
        · exact ha' c h
      have hl : (s.take k ++ a').length = k + a'.length := by rw [List.length_append, hlen]
      have h1 := takeWhile_run (b := b') hall
      rw [← hs, hl] at h1
      have hpos : 0 < a'.length := List.length_pos_iff.2 hne
      have h2 := hn (k + a'.length) (by
        cases hmn : it.many with
        | true => simpa using h1
        | false =>
          have := hmany hmn
          simp
          omega) (by omega)
      rw [Option.map_eq_none_iff] at h2
      rwa [← List.drop_drop, e, List.drop_left] at h2
  · rintro ⟨a, b, gs', rfl, ha, hlo, hmany, hm, rfl, hgr⟩
    have h1 := takeWhile_run (b := b) ha
    refine ⟨a.length, ?_, hlo, ?_, fun j hj hk => ?_⟩
    · cases hmn : it.many with
      | true => simpa using h1
      | false =>
        have := hmany hmn
        simp
        omega
    · rw [List.drop_left, hm, List.take_left]
      rfl
    · rw [Option.map_eq_none_iff]
      have hj' : j ≤ ((a ++ b).takeWhile it.cls).length := by split_ifs at hj <;> omega
      have hjl : j ≤ (a ++ b).length := hj'.trans (List.takeWhile_prefix it.cls (l := a ++ b)).length_le
      have e1 : (a ++ b).drop j = b.drop (j - a.length) := by
        rw [List.drop_append, List.drop_eq_nil_of_le (by omega), List.nil_append]
      have e2 : (a ++ b).take j = a ++ b.take (j - a.length) := by
        rw [List.take_append, List.take_of_length_le (by omega)]
      rw [List.length_append] at hjl
      rw [e1]
      refine hgr (b.take (j - a.length)) _ (List.take_append_drop _ _).symm ?_ (fun c hc => ?_) fun h => ?_
      · intro e
        have := congrArg List.length e
        rw [List.length_take, List.length_nil] at this
        omega
      · refine take_run hj' c ?_
        rw [e2]
        exact List.mem_append_right _ hc
      · rw [h] at hj
        rw [List.length_take]
        simp at hj
        omega

/-- a repeated item before text that it cannot take -/
theorem match_run {it : ReItem} {its : List ReItem} {a b : List Char} {gs : List (List Char)} (hm : it.many = true) (ha : ∀ c ∈ a, it.cls c = true) (hlo : it.lo ≤ a.length)
    (hb : ∀ c v, b = c :: v → it.cls c = false) (h : reMatch its b = some gs) : reMatch (it :: its) (a ++ b) = some (if it.group then a :: gs else gs) := by
  refine reMatch_cons.2 ⟨a, b, gs, rfl, ha, hlo, fun e => absurd e (by rw [hm]; simp), h, rfl, fun a' b' e hne ha' _ => ?_⟩
  obtain ⟨c, v, rfl⟩ := List.exists_cons_of_ne_nil hne
  have := hb c (v ++ b') e
  rw [ha' c List.mem_cons_self] at this
  cases this

/-- an item that is not repeated -/
theorem match_one {it : ReItem} {its : List ReItem} {c : Char} {b : List Char} {gs : List (List Char)} (hm : it.many = false) (hc : it.cls c = true) (hlo : it.lo = 1)
    (h : reMatch its b = some gs) : reMatch (it :: its) (c :: b) = some (if it.group then [c] :: gs else gs) := by
  refine reMatch_cons.2 ⟨[c], b, gs, rfl, by simpa using hc, by rw [hlo]; simp, fun _ => by simp, h, rfl, fun a' b' e hne _ h1 => ?_⟩
  have := h1 hm
  have hpos : 0 < a'.length := List.length_pos_iff.2 hne
  rw [List.length_singleton] at this
  omega

/-- text without digits and then one of two letters, the last one before the next digit -/
theorem match_letter {lo : ℕ} {x y h : Char} {its : List ReItem} {t r : List Char} {gs : List (List Char)} (hx : ¬ IsDigit x) (hy : ¬ IsDigit y) (hh : h = x ∨ h = y)
    (ht : NoDigit t) (hlo : lo ≤ t.length) (hr : ∀ u v, r = u ++ v → NoDigit u → ∀ c ∈ u, c ≠ x ∧ c ≠ y) (hm : reMatch its r = some gs) :
    reMatch (⟨fun c => !reDigit c, lo, true, false⟩ :: reEither x y :: its) (t ++ h :: r) = some ([h] :: gs) := by
  have h1 : reMatch (reEither x y :: its) (h :: r) = some ([h] :: gs) := by
    have := match_one (it := reEither x y) rfl (by simpa [reEither] using hh) rfl hm
    simpa [reEither] using this
  refine reMatch_cons.2 ⟨t, h :: r, [h] :: gs, rfl, fun c hc => by simpa [reDigit_iff, ← Bool.not_eq_true] using ht c hc, hlo, fun e => absurd e (by simp), h1, rfl, fun a' b' e hne ha' _ => ?_⟩
  obtain ⟨c, v, rfl⟩ := List.exists_cons_of_ne_nil hne
  rw [List.cons_append, List.cons.injEq] at e
  obtain ⟨rfl, e⟩ := e
  cases b' with
  | nil =>
    cases hres : reMatch (reEither x y :: its) [] with
    | none => rfl
    | some gs' =>
      obtain ⟨a, b, _, e', _, hl, _⟩ := reMatch_cons.1 hres
      rw [List.nil_eq_append_iff] at e'
      rw [e'.1] at hl
      simp [reEither] at hl
  | cons d b' =>
    have hvd : NoDigit v := fun c hc => by
      have := ha' c (List.mem_cons_of_mem _ hc)
      simpa [reDigit_iff, ← Bool.not_eq_true] using this
    have hd : d ≠ x ∧ d ≠ y := by
      by_cases hdig : IsDigit d
      · exact ⟨fun e => hx (e ▸ hdig), fun e => hy (e ▸ hdig)⟩
      · refine hr (v ++ [d]) b' (by simpa using e) (fun c hc => ?_) d (by simp)
        rcases List.mem_append.1 hc with hc | hc
        · exact hvd c hc
        · rw [List.mem_singleton.1 hc]
          exact hdig
    cases hres : reMatch (reEither x y :: its) (d :: b') with
    | none => rfl
    | some gs' =>
      obtain ⟨a, b, _, e', hall, hl, _⟩ := reMatch_cons.1 hres
      cases a with
      | nil => simp [reEither] at hl
      | cons a0 a =>
        rw [List.cons_append, List.cons.injEq] at e'
        have := hall a0 List.mem_cons_self
        rw [← e'.1] at this
        simp [reEither, hd.1, hd.2] at this

theorem nondigit_iff (c : Char) : (!reDigit c) = true ↔ ¬ IsDigit c := by
  rw [← reDigit_iff]
  simp

theorem digits_some {its : List ReItem} {s : List Char} {gs : List (List Char)} (h : reMatch (reDigits :: its) s = some gs) :
    ∃ a b gs', s = a ++ b ∧ Numeral a ∧ reMatch its b = some gs' ∧ gs = a :: gs' := by
  obtain ⟨a, b, gs', e, ha, hl, _, hm, hg, _⟩ := reMatch_cons.1 h
  exact ⟨a, b, gs', e, ⟨List.length_pos_iff.1 hl, fun c hc => (reDigit_iff c).1 (ha c hc)⟩, hm, by simpa [reDigits] using hg⟩

theorem sep_some {its : List ReItem} {s : List Char} {gs : List (List Char)} (h : reMatch (reSep :: its) s = some gs) :
    ∃ c b, s = c :: b ∧ ¬ IsDigit c ∧ reMatch its b = some gs := by
  obtain ⟨a, b, gs', e, ha, hl, h1, hm, hg, _⟩ := reMatch_cons.1 h
  have h1 := h1 rfl
  have hl : 1 ≤ a.length := hl
  obtain ⟨c, rfl⟩ := List.length_eq_one_iff.1 (show a.length = 1 by omega)
  exact ⟨c, b, e, (nondigit_iff c).1 (ha c List.mem_cons_self), by rw [hm]; simpa [reSep] using hg.symm⟩

theorem seps_some {its : List ReItem} {s : List Char} {gs : List (List Char)} (h : reMatch (reSeps :: its) s = some gs) :
    ∃ a b, s = a ++ b ∧ a ≠ [] ∧ NoDigit a ∧ reMatch its b = some gs := by
  obtain ⟨a, b, gs', e, ha, hl, h1, hm, hg, _⟩ := reMatch_cons.1 h
  exact ⟨a, b, e, List.length_pos_iff.1 hl, fun c hc => (nondigit_iff c).1 (ha c hc), by rw [hm]; simpa [reSeps] using hg.symm⟩

theorem gap_some {its : List ReItem} {s : List Char} {gs : List (List Char)} (h : reMatch (reGap :: its) s = some gs) :
    ∃ a b, s = a ++ b ∧ NoDigit a ∧ reMatch its b = some gs := by
  obtain ⟨a, b, gs', e, ha, hl, h1, hm, hg, _⟩ := reMatch_cons.1 h
  exact ⟨a, b, e, fun c hc => (nondigit_iff c).1 (ha c hc), by rw [hm]; simpa [reGap] using hg.symm⟩

theorem blank_some {its : List ReItem} {s : List Char} {gs : List (List Char)} (h : reMatch (reBlank :: its) s = some gs) :
    ∃ a b, s = a ++ b ∧ a ≠ [] ∧ (∀ c ∈ a, ¬ IsWord c) ∧ reMatch its b = some gs := by
  obtain ⟨a, b, gs', e, ha, hl, h1, hm, hg, _⟩ := reMatch_cons.1 h
  exact ⟨a, b, e, List.length_pos_iff.1 hl, fun c hc => (reNonWord_iff c).1 (ha c hc), by rw [hm]; simpa [reBlank] using hg.symm⟩

theorem either_some {x y : Char} {its : List ReItem} {s : List Char} {gs : List (List Char)} (h : reMatch (reEither x y :: its) s = some gs) :
    ∃ c b gs', s = c :: b ∧ (c = x ∨ c = y) ∧ reMatch its b = some gs' ∧ gs = [c] :: gs' := by
  obtain ⟨a, b, gs', e, ha, hl, h1, hm, hg, _⟩ := reMatch_cons.1 h
  have h1 := h1 rfl
  have hl : 1 ≤ a.length := hl
  obtain ⟨c, rfl⟩ := List.length_eq_one_iff.1 (show a.length = 1 by omega)
  exact ⟨c, b, gs', e, by simpa [reEither] using ha c List.mem_cons_self, hm, by simpa [reEither] using hg⟩

theorem last_some {lo : ℕ} {s : List Char} {gs : List (List Char)} (h : reMatch [⟨fun c => !reDigit c, lo, true, false⟩, reEither 'E' 'W'] s = some gs) :
    ∃ t c rest, s = t ++ c :: rest ∧ NoDigit t ∧ lo ≤ t.length ∧ (c = 'E' ∨ c = 'W') ∧ EndsThere rest ∧ gs = [[c]] := by
  obtain ⟨a, b, gs', e, ha, hl, h1, hm, hg, hgr⟩ := reMatch_cons.1 h
  obtain ⟨c, rest, gs'', rfl, hc, hm', rfl⟩ := either_some hm
  cases hm'
  refine ⟨a, c, rest, e, fun c hc => (nondigit_iff c).1 (ha c hc), hl, hc, fun u v hu hnd d hd => ?_, by simpa using hg⟩
  obtain ⟨u1, u2, rfl⟩ := List.append_of_mem hd
  have hcd : ¬ IsDigit c := by rcases hc with rfl | rfl <;> simp [IsDigit]
  have h2 := hgr (c :: u1) (d :: (u2 ++ v)) (by rw [hu]; simp) (by simp) (fun z hz => (nondigit_iff z).2 (by
    rcases List.mem_cons.1 hz with rfl | hz
    · exact hcd
    · exact hnd z (List.mem_append_left _ hz))) (fun e => absurd e (by simp))
  by_contra hne
  have hd' : d = 'E' ∨ d = 'W' := by tauto
  have h3 := match_one (it := reEither 'E' 'W') (its := []) (c := d) (b := u2 ++ v) (gs := []) rfl (by simpa [reEither] using hd') rfl rfl
  rw [h2] at h3
  cases h3

/-- the pieces of a location with seconds -/
def DmsParts (s d₁ m₁ s₁ : List Char) (h₁ : Char) (d₂ m₂ s₂ : List Char) (h₂ : Char) : Prop :=
  ∃ (c₁ : Char) (w t₁ g : List Char) (c₂ c₃ : Char) (t₂ rest : List Char),
    s = d₁ ++ c₁ :: (m₁ ++ (w ++ (s₁ ++ (t₁ ++ h₁ :: (g ++ (d₂ ++ c₂ :: (m₂ ++ c₃ :: (s₂ ++ (t₂ ++ h₂ :: rest)))))))))  ∧
    Numeral d₁ ∧ Numeral m₁ ∧ Numeral s₁ ∧ Numeral d₂ ∧ Numeral m₂ ∧ Numeral s₂ ∧ ¬ IsDigit c₁ ∧ ¬ IsDigit c₂ ∧ ¬ IsDigit c₃ ∧ w ≠ [] ∧ NoDigit w ∧ NoDigit t₁ ∧ NoDigit t₂ ∧
    (h₁ = 'N' ∨ h₁ = 'S') ∧ (h₂ = 'E' ∨ h₂ = 'W') ∧ g ≠ [] ∧ (∀ c ∈ g, ¬ IsWord c) ∧ EndsThere rest

theorem isDms_iff (s : List Char) (lat lon : ℝ) :
    IsDms s lat lon ↔ ∃ d₁ m₁ s₁ h₁ d₂ m₂ s₂ h₂, DmsParts s d₁ m₁ s₁ h₁ d₂ m₂ s₂ h₂ ∧ lat = hemisphere h₁ * degrees d₁ m₁ s₁ ∧ lon = hemisphere h₂ * degrees d₂ m₂ s₂ := by
  constructor
  · rintro ⟨d₁, c₁, m₁, w, s₁, t₁, h₁, g, d₂, c₂, m₂, c₃, s₂, t₂, h₂, rest, e, a1, a2, a3, a4, a5, a6, a7, a8, a9, a10, a11, a12, a13, a14, a15, a16, a17, a18, e1, e2⟩
    exact ⟨d₁, m₁, s₁, h₁, d₂, m₂, s₂, h₂, ⟨c₁, w, t₁, g, c₂, c₃, t₂, rest, e, a1, a2, a3, a4, a5, a6, a7, a8, a9, a10, a11, a12, a13, a14, a15, a16, a17, a18⟩, e1, e2⟩
  · rintro ⟨d₁, m₁, s₁, h₁, d₂, m₂, s₂, h₂, ⟨c₁, w, t₁, g, c₂, c₃, t₂, rest, e, a1, a2, a3, a4, a5, a6, a7, a8, a9, a10, a11, a12, a13, a14, a15, a16, a17, a18⟩, e1, e2⟩
    exact ⟨d₁, c₁, m₁, w, s₁, t₁, h₁, g, d₂, c₂, m₂, c₃, s₂, t₂, h₂, rest, e, a1, a2, a3, a4, a5, a6, a7, a8, a9, a10, a11, a12, a13, a14, a15, a16, a17, a18, e1, e2⟩

/-- the pieces of a location without seconds -/
def DmParts (s d₁ m₁ : List Char) (h₁ : Char) (d₂ m₂ : List Char) (h₂ : Char) : Prop :=
  ∃ w₁ t₁ g w₂ t₂ rest : List Char,
    s = d₁ ++ (w₁ ++ (m₁ ++ (t₁ ++ h₁ :: (g ++ (d₂ ++ (w₂ ++ (m₂ ++ (t₂ ++ h₂ :: rest)))))))) ∧
    Numeral d₁ ∧ Numeral m₁ ∧ Numeral d₂ ∧ Numeral m₂ ∧ w₁ ≠ [] ∧ NoDigit w₁ ∧ t₁ ≠ [] ∧ NoDigit t₁ ∧ w₂ ≠ [] ∧ NoDigit w₂ ∧ t₂ ≠ [] ∧ NoDigit t₂ ∧
    (h₁ = 'N' ∨ h₁ = 'S') ∧ (h₂ = 'E' ∨ h₂ = 'W') ∧ g ≠ [] ∧ (∀ c ∈ g, ¬ IsWord c) ∧ EndsThere rest

theorem isDm_iff (s : List Char) (lat lon : ℝ) :
    IsDm s lat lon ↔ ∃ d₁ m₁ h₁ d₂ m₂ h₂, DmParts s d₁ m₁ h₁ d₂ m₂ h₂ ∧ lat = hemisphere h₁ * degrees d₁ m₁ [] ∧ lon = hemisphere h₂ * degrees d₂ m₂ [] := by
  constructor
  · rintro ⟨d₁, w₁, m₁, t₁, h₁, g, d₂, w₂, m₂, t₂, h₂, rest, e, a1, a2, a3, a4, a5, a6, a7, a8, a9, a10, a11, a12, a13, a14, a15, a16, a17, e1, e2⟩
    exact ⟨d₁, m₁, h₁, d₂, m₂, h₂, ⟨w₁, t₁, g, w₂, t₂, rest, e, a1, a2, a3, a4, a5, a6, a7, a8, a9, a10, a11, a12, a13, a14, a15, a16, a17⟩, e1, e2⟩
  · rintro ⟨d₁, m₁, h₁, d₂, m₂, h₂, ⟨w₁, t₁, g, w₂, t₂, rest, e, a1, a2, a3, a4, a5, a6, a7, a8, a9, a10, a11, a12, a13, a14, a15, a16, a17⟩, e1, e2⟩
    exact ⟨d₁, w₁, m₁, t₁, h₁, g, d₂, w₂, m₂, t₂, h₂, rest, e, a1, a2, a3, a4, a5, a6, a7, a8, a9, a10, a11, a12, a13, a14, a15, a16, a17, e1, e2⟩

theorem digits_match {its : List ReItem} {a b : List Char} {gs : List (List Char)} (ha : Numeral a) (hb : ∀ c v, b = c :: v → ¬ IsDigit c) (h : reMatch its b = some gs) :
    reMatch (reDigits :: its) (a ++ b) = some (a :: gs) := by
  have := match_run (it := reDigits) rfl (fun c hc => (reDigit_iff c).2 (ha.2 c hc)) (List.length_pos_iff.2 ha.1)
    (fun c v e => Bool.eq_false_iff.2 fun h => hb c v e ((reDigit_iff c).1 h)) h
  simpa [reDigits] using this

theorem sep_match {its : List ReItem} {c : Char} {b : List Char} {gs : List (List Char)} (hc : ¬ IsDigit c) (h : reMatch its b = some gs) :
    reMatch (reSep :: its) (c :: b) = some gs := by
  have := match_one (it := reSep) rfl ((nondigit_iff c).2 hc) rfl h
  simpa [reSep] using this

theorem seps_match {its : List ReItem} {a b : List Char} {gs : List (List Char)} (hne : a ≠ []) (ha : NoDigit a) (hb : ∀ c v, b = c :: v → IsDigit c)
    (h : reMatch its b = some gs) : reMatch (reSeps :: its) (a ++ b) = some gs := by
  have := match_run (it := reSeps) rfl (fun c hc => (nondigit_iff c).2 (ha c hc)) (List.length_pos_iff.2 hne)
    (fun c v e => Bool.eq_false_iff.2 fun h => (nondigit_iff c).1 h (hb c v e)) h
  simpa [reSeps] using this

theorem blank_match {its : List ReItem} {a b : List Char} {gs : List (List Char)} (hne : a ≠ []) (ha : ∀ c ∈ a, ¬ IsWord c) (hb : ∀ c v, b = c :: v → IsDigit c)
    (h : reMatch its b = some gs) : reMatch (reBlank :: its) (a ++ b) = some gs := by
  have := match_run (it := reBlank) rfl (fun c hc => (reNonWord_iff c).2 (ha c hc)) (List.length_pos_iff.2 hne)
    (fun c v e => Bool.eq_false_iff.2 fun h => (reNonWord_iff c).1 h (Or.inl (hb c v e))) h
  simpa [reBlank] using this

theorem numeral_head {a b : List Char} (ha : Numeral a) : ∀ c v, a ++ b = c :: v → IsDigit c := by
  intro c v e
  obtain ⟨x, a, rfl⟩ := List.exists_cons_of_ne_nil ha.1
  rw [List.cons_append, List.cons.injEq] at e
  exact e.1 ▸ ha.2 x List.mem_cons_self

theorem nodigit_head {a b : List Char} (hne : a ≠ []) (ha : NoDigit a) : ∀ c v, a ++ b = c :: v → ¬ IsDigit c := by
  intro c v e
  obtain ⟨x, a, rfl⟩ := List.exists_cons_of_ne_nil hne
  rw [List.cons_append, List.cons.injEq] at e
  exact e.1 ▸ ha x List.mem_cons_self

theorem nodigit_head' {a b : List Char} {h : Char} (ha : NoDigit a) (hh : ¬ IsDigit h) : ∀ c v, a ++ h :: b = c :: v → ¬ IsDigit c := by
  intro c v e
  cases a with
  | nil =>
    rw [List.nil_append, List.cons.injEq] at e
    exact e.1 ▸ hh
  | cons x a =>
    rw [List.cons_append, List.cons.injEq] at e
    exact e.1 ▸ ha x List.mem_cons_self

theorem letter_not_digit {c : Char} (h : c = 'N' ∨ c = 'S' ∨ c = 'E' ∨ c = 'W') : ¬ IsDigit c := by
  rcases h with rfl | rfl | rfl | rfl <;> simp [IsDigit]

/-- after a letter, only punctuation up to the next digit -/
theorem punctuation_ends {g d b : List Char} (hg : ∀ c ∈ g, ¬ IsWord c) (hd : Numeral d) : ∀ u v, g ++ (d ++ b) = u ++ v → NoDigit u → ∀ c ∈ u, c ≠ 'N' ∧ c ≠ 'S' := by
  intro u v e hu c hc
  have hcg : c ∈ g := by
    rcases List.append_eq_append_iff.1 e with ⟨w, rfl, e2⟩ | ⟨w, rfl, -⟩
    · rcases List.mem_append.1 hc with h | h
      · exact h
      · exfalso
        obtain ⟨x, d, rfl⟩ := List.exists_cons_of_ne_nil hd.1
        obtain ⟨y, w, rfl⟩ := List.exists_cons_of_ne_nil (List.ne_nil_of_mem h)
        rw [List.cons_append, List.cons_append, List.cons.injEq] at e2
        exact hu y (List.mem_append_right _ List.mem_cons_self) (e2.1 ▸ hd.2 x List.mem_cons_self)
    · exact List.mem_append_left _ hc
  have := hg c hcg
  constructor <;> rintro rfl <;> exact this (by simp [IsWord])

/-- what the first regular expression matches -/
theorem dms_match (s : List Char) (gs : List (List Char)) :
    reMatch noaaDms s = some gs ↔ ∃ d₁ m₁ s₁ h₁ d₂ m₂ s₂ h₂, DmsParts s d₁ m₁ s₁ h₁ d₂ m₂ s₂ h₂ ∧ gs = [d₁, m₁, s₁, [h₁], d₂, m₂, s₂, [h₂]] := by
  constructor
  · intro q0
    unfold noaaDms at q0
    obtain ⟨d₁, b, g1, rfl, n1, q1, rfl⟩ := digits_some q0
    obtain ⟨c₁, b, rfl, n2, q2⟩ := sep_some q1
    obtain ⟨m₁, b, g2, rfl, n3, q3, rfl⟩ := digits_some q2
    obtain ⟨w, b, rfl, n4, n4', q4⟩ := seps_some q3
    obtain ⟨s₁, b, g3, rfl, n5, q5, rfl⟩ := digits_some q4
    obtain ⟨t₁, b, rfl, n6, q6⟩ := gap_some q5
    obtain ⟨h₁, b, g4, rfl, n7, q7, rfl⟩ := either_some q6
    obtain ⟨g, b, rfl, n8, n8', q8⟩ := blank_some q7
    obtain ⟨d₂, b, g5, rfl, n9, q9, rfl⟩ := digits_some q8
    obtain ⟨c₂, b, rfl, n10, q10⟩ := sep_some q9
    obtain ⟨m₂, b, g6, rfl, n11, q11, rfl⟩ := digits_some q10
    obtain ⟨c₃, b, rfl, n12, q12⟩ := sep_some q11
    obtain ⟨s₂, b, g7, rfl, n13, q13, rfl⟩ := digits_some q12
    obtain ⟨t₂, h₂, rest, rfl, n14, -, n15, n16, rfl⟩ := last_some (lo := 0) q13
    exact ⟨d₁, m₁, s₁, h₁, d₂, m₂, s₂, h₂, ⟨c₁, w, t₁, g, c₂, c₃, t₂, rest, rfl, n1, n3, n5, n9, n11, n13, n2, n10, n12, n4, n4', n6, n14, n7, n15, n8, n8', n16⟩, rfl⟩
  · rintro ⟨d₁, m₁, s₁, h₁, d₂, m₂, s₂, h₂, ⟨c₁, w, t₁, g, c₂, c₃, t₂, rest, rfl, n1, n3, n5, n9, n11, n13, n2, n10, n12, n4, n4', n6, n14, n7, n15, n8, n8', n16⟩, rfl⟩
    have hh1 : ¬ IsDigit h₁ := letter_not_digit (by tauto)
    have hh2 : ¬ IsDigit h₂ := letter_not_digit (by tauto)
    have k1 : reMatch [reGap, reEither 'E' 'W'] (t₂ ++ h₂ :: rest) = some [[h₂]] :=
      match_letter (letter_not_digit (by tauto)) (letter_not_digit (by tauto)) n15 n14 (Nat.zero_le _) n16 rfl
    have k2 := digits_match n13 (nodigit_head' n14 hh2) k1
    have k3 := digits_match n11 (nodigit_head (a := [c₃]) (by simp) (by simpa [NoDigit] using n12)) (sep_match n12 k2)
    have k4 := digits_match n9 (nodigit_head (a := [c₂]) (by simp) (by simpa [NoDigit] using n10)) (sep_match n10 k3)
    have k5 := blank_match n8 n8' (numeral_head n9) k4
    have k6 := match_letter (lo := 0) (letter_not_digit (by tauto)) (letter_not_digit (by tauto)) n7 n6 (Nat.zero_le _) (punctuation_ends n8' n9) k5
    have k7 := digits_match n5 (nodigit_head' n6 hh1) k6
    have k8 := digits_match n3 (nodigit_head n4 n4') (seps_match n4 n4' (numeral_head n5) k7)
    exact digits_match n1 (nodigit_head (a := [c₁]) (by simp) (by simpa [NoDigit] using n2)) (sep_match n2 k8)

/-- what the second regular expression matches -/
theorem dm_match (s : List Char) (gs : List (List Char)) :
    reMatch noaaDm s = some gs ↔ ∃ d₁ m₁ h₁ d₂ m₂ h₂, DmParts s d₁ m₁ h₁ d₂ m₂ h₂ ∧ gs = [d₁, m₁, [h₁], d₂, m₂, [h₂]] := by
  constructor
  · intro q0
    unfold noaaDm at q0
    obtain ⟨d₁, b, g1, rfl, n1, q1, rfl⟩ := digits_some q0
    obtain ⟨w₁, b, rfl, n2, n2', q2⟩ := seps_some q1
    obtain ⟨m₁, b, g2, rfl, n3, q3, rfl⟩ := digits_some q2
    obtain ⟨t₁, b, rfl, n4, n4', q4⟩ := seps_some q3
    obtain ⟨h₁, b, g3, rfl, n5, q5, rfl⟩ := either_some q4
    obtain ⟨g, b, rfl, n6, n6', q6⟩ := blank_some q5
    obtain ⟨d₂, b, g4, rfl, n7, q7, rfl⟩ := digits_some q6
    obtain ⟨w₂, b, rfl, n8, n8', q8⟩ := seps_some q7
    obtain ⟨m₂, b, g5, rfl, n9, q9, rfl⟩ := digits_some q8
    obtain ⟨t₂, h₂, rest, rfl, n10, n10', n11, n12, rfl⟩ := last_some (lo := 1) q9
    exact ⟨d₁, m₁, h₁, d₂, m₂, h₂, ⟨w₁, t₁, g, w₂, t₂, rest, rfl, n1, n3, n7, n9, n2, n2', n4, n4', n8, n8', List.length_pos_iff.1 n10', n10, n5, n11, n6, n6', n12⟩, rfl⟩
  · rintro ⟨d₁, m₁, h₁, d₂, m₂, h₂, ⟨w₁, t₁, g, w₂, t₂, rest, rfl, n1, n3, n7, n9, n2, n2', n4, n4', n8, n8', n10', n10, n5, n11, n6, n6', n12⟩, rfl⟩
    have hh1 : ¬ IsDigit h₁ := letter_not_digit (by tauto)
    have hh2 : ¬ IsDigit h₂ := letter_not_digit (by tauto)
    have k1 : reMatch [reSeps, reEither 'E' 'W'] (t₂ ++ h₂ :: rest) = some [[h₂]] :=
      match_letter (letter_not_digit (by tauto)) (letter_not_digit (by tauto)) n11 n10 (List.length_pos_iff.2 n10') n12 rfl
    have k2 := digits_match n9 (nodigit_head' n10 hh2) k1
    have k3 := digits_match n7 (nodigit_head n8 n8') (seps_match n8 n8' (numeral_head n9) k2)
    have k4 := blank_match n6 n6' (numeral_head n7) k3
    have k5 := match_letter (lo := 1) (letter_not_digit (by tauto)) (letter_not_digit (by tauto)) n5 n4' (List.length_pos_iff.2 n4) (punctuation_ends n6' n7) k4
    have k6 := digits_match n3 (nodigit_head' n4' hh1) k5
    exact digits_match n1 (nodigit_head n2 n2') (seps_match n2 n2' (numeral_head n3) k6)

theorem pyDigits_eq (w : List Char) : pyDigits w = decimal w := by
  induction w using List.reverseRecOn with
  | nil => simp [pyDigits, decimal]
  | append_singleton w c ih =>
    unfold pyDigits at ih ⊢
    rw [List.foldl_append, List.foldl_cons, List.foldl_nil, ih]
    unfold decimal
    rw [List.length_append, List.length_singleton, Finset.sum_range_succ, Finset.mul_sum]
    congr 1
    · refine Finset.sum_congr rfl fun i hi => ?_
      have hi := Finset.mem_range.1 hi
      rw [show w.length + 1 - 1 - i = (w.length - 1 - i) + 1 by omega, pow_succ,
        show (w ++ [c]).getD i '0' = w.getD i '0' by rw [List.getD_eq_getElem?_getD, List.getElem?_append_left hi, List.getD_eq_getElem?_getD]]
      ring
    · simp

end Verif
