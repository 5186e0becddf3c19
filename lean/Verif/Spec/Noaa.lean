import Verif.Model.Noaa
import Mathlib.Algebra.BigOperators.Group.Finset.Basic
import Mathlib.Data.Real.Basic

/-! Vocabulary for C110: station locations, numbers and rows of the weather station data set. -/

namespace Verif

/-- a digit -/
def IsDigit (c : Char) : Prop := '0' ≤ c ∧ c ≤ '9'

/-- a letter, a digit or `_` -/
def IsWord (c : Char) : Prop := IsDigit c ∨ ('a' ≤ c ∧ c ≤ 'z') ∨ ('A' ≤ c ∧ c ≤ 'Z') ∨ c = '_'

/-- a number, written with decimal digits -/
def Numeral (w : List Char) : Prop := w ≠ [] ∧ ∀ c ∈ w, IsDigit c

/-- text without digits -/
def NoDigit (w : List Char) : Prop := ∀ c ∈ w, ¬ IsDigit c

/-- the number written with decimal digits -/
def decimal (w : List Char) : ℝ := ∑ i ∈ Finset.range w.length, (((w.getD i '0').toNat - '0'.toNat : ℕ) : ℝ) * 10 ^ (w.length - 1 - i)

/-- `+` for `N` and `E`, `-` for `S` and `W` -/
def hemisphere (c : Char) : ℝ := if c = 'N' ∨ c = 'E' then 1 else -1

/-- degrees, minutes and seconds as degrees -/
noncomputable def degrees (d m s : List Char) : ℝ := decimal d + decimal m / 60 + decimal s / 3600

/-- no `E` or `W` before the next digit -/
def EndsThere (rest : List Char) : Prop := ∀ u v, rest = u ++ v → NoDigit u → ∀ c ∈ u, c ≠ 'E' ∧ c ≠ 'W'

/-- Degrees, minutes and seconds of latitude, `N` or `S`, blanks or punctuation, degrees, minutes and seconds of longitude, `E` or `W`, and anything. Numbers are separated by
one character that is not a digit, or more between the minutes and seconds of latitude; other text without digits may precede the letters. -/
def IsDms (s : List Char) (lat lon : ℝ) : Prop :=
  ∃ (d₁ : List Char) (c₁ : Char) (m₁ w s₁ t₁ : List Char) (h₁ : Char) (g d₂ : List Char) (c₂ : Char) (m₂ : List Char) (c₃ : Char) (s₂ t₂ : List Char) (h₂ : Char) (rest : List Char),
    s = d₁ ++ c₁ :: (m₁ ++ (w ++ (s₁ ++ (t₁ ++ h₁ :: (g ++ (d₂ ++ c₂ :: (m₂ ++ c₃ :: (s₂ ++ (t₂ ++ h₂ :: rest)))))))))  ∧
    Numeral d₁ ∧ Numeral m₁ ∧ Numeral s₁ ∧ Numeral d₂ ∧ Numeral m₂ ∧ Numeral s₂ ∧ ¬ IsDigit c₁ ∧ ¬ IsDigit c₂ ∧ ¬ IsDigit c₃ ∧ w ≠ [] ∧ NoDigit w ∧ NoDigit t₁ ∧ NoDigit t₂ ∧
    (h₁ = 'N' ∨ h₁ = 'S') ∧ (h₂ = 'E' ∨ h₂ = 'W') ∧ g ≠ [] ∧ (∀ c ∈ g, ¬ IsWord c) ∧ EndsThere rest ∧
    lat = hemisphere h₁ * degrees d₁ m₁ s₁ ∧ lon = hemisphere h₂ * degrees d₂ m₂ s₂

/-- degrees and minutes only, separated by at least one character -/
def IsDm (s : List Char) (lat lon : ℝ) : Prop :=
  ∃ (d₁ w₁ m₁ t₁ : List Char) (h₁ : Char) (g d₂ w₂ m₂ t₂ : List Char) (h₂ : Char) (rest : List Char),
    s = d₁ ++ (w₁ ++ (m₁ ++ (t₁ ++ h₁ :: (g ++ (d₂ ++ (w₂ ++ (m₂ ++ (t₂ ++ h₂ :: rest)))))))) ∧
    Numeral d₁ ∧ Numeral m₁ ∧ Numeral d₂ ∧ Numeral m₂ ∧ w₁ ≠ [] ∧ NoDigit w₁ ∧ t₁ ≠ [] ∧ NoDigit t₁ ∧ w₂ ≠ [] ∧ NoDigit w₂ ∧ t₂ ≠ [] ∧ NoDigit t₂ ∧
    (h₁ = 'N' ∨ h₁ = 'S') ∧ (h₂ = 'E' ∨ h₂ = 'W') ∧ g ≠ [] ∧ (∀ c ∈ g, ¬ IsWord c) ∧ EndsThere rest ∧
    lat = hemisphere h₁ * degrees d₁ m₁ [] ∧ lon = hemisphere h₂ * degrees d₂ m₂ []

/-- a number written with digits and at most one point -/
def Written (w : List Char) (v : ℝ) : Prop :=
  (Numeral w ∧ v = decimal w) ∨
    ∃ a b, w = a ++ '.' :: b ∧ (∀ c ∈ a, IsDigit c) ∧ (∀ c ∈ b, IsDigit c) ∧ (a ≠ [] ∨ b ≠ []) ∧ v = decimal a + decimal b / 10 ^ b.length

/-- the digits and points of a text -/
noncomputable def digitsAndPoints (s : List Char) : List Char := open Classical in s.filter fun c => decide (IsDigit c ∨ c = '.')

/-- the locations listed for a station -/
def locationsOf (stations : List (ℕ × Option (List Char))) (wban : ℕ) : List (List Char) := stations.filterMap fun s => if s.1 = wban then s.2 else none

/-- a text that records a number: the number, possibly after a minus sign, between text without digits and points -/
def Notes (s : List Char) (v : ℝ) : Prop :=
  ∃ (a w b : List Char) (u : ℝ), s = a ++ (w ++ b) ∧ Written w u ∧ (∀ c ∈ a ++ b, ¬ IsDigit c ∧ c ≠ '.') ∧ v = if a.getLast? = some '-' then -u else u

/-- a text without digits and points: nothing was recorded -/
def Nothing (s : List Char) : Prop := ∀ c ∈ s, ¬ IsDigit c ∧ c ≠ '.'

end Verif
