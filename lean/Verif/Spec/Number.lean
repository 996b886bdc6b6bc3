import Mathlib.Data.List.Basic

/-!
The number grammar of SVG path data, transforms and lengths, as this library accepts it (no digit-less
fraction such as `5.`), written down directly.
-/

namespace Svgio.Spec

/-- a decimal digit -/
def IsDigit (c : Char) : Prop := '0' ≤ c ∧ c ≤ '9'

/-- zero or more digits -/
def Digits (s : List Char) : Prop := ∀ c ∈ s, IsDigit c

/-- an optional sign -/
def OptSign (s : List Char) : Prop := s = [] ∨ s = ['+'] ∨ s = ['-']

/-- `digits`, `digits . digits` or `. digits`, the last part not empty -/
def IsMantissa (s : List Char) : Prop :=
  ∃ ip fp, s = ip ++ fp ∧ Digits ip ∧
    ((fp = [] ∧ ip ≠ []) ∨ ∃ ds, fp = '.' :: ds ∧ ds ≠ [] ∧ Digits ds)

/-- nothing, or `e` / `E`, an optional sign and at least one digit -/
def OptExponent (s : List Char) : Prop :=
  s = [] ∨ ∃ c sg ds, (c = 'e' ∨ c = 'E') ∧ s = c :: (sg ++ ds) ∧ OptSign sg ∧ ds ≠ [] ∧ Digits ds

/-- a number literal -/
def IsNumber (t : List Char) : Prop :=
  ∃ sg m ex, t = sg ++ (m ++ ex) ∧ OptSign sg ∧ IsMantissa m ∧ OptExponent ex

/-- Reading stops after `t`: no longer prefix of `t ++ r` is a number. -/
def Stops (t r : List Char) : Prop := ∀ p q, r = p ++ q → p ≠ [] → ¬ IsNumber (t ++ p)

end Svgio.Spec
