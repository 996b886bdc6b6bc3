import Verif.Props.ColorKeywords
import Verif.Model.ColorParse
import Mathlib.Tactic.FieldSimp
import Mathlib.Tactic.Positivity
import Mathlib.Tactic.LinearCombination

/-! C11: hue, saturation, lightness. -/

namespace Svgio.Props
open Svgio.Spec

/-! #### The piecewise linear hue function on its six pieces -/

theorem hue2rgb_up {mn d x : ℚ} (h0 : 0 ≤ x) (h1 : x ≤ 1/6) :
    Color.hue2rgb mn (mn + d) x = mn + d * (6 * x) := by
  unfold Color.hue2rgb
  have a : ¬ x < 0 := by linarith
  have b : ¬ x > 1 := by linarith
  simp only [a, b, if_false]
  by_cases c : 6 * x < 1
  · rw [if_pos c]; ring
  · have : x = 1/6 := by linarith
    subst this
    norm_num

theorem hue2rgb_top {mn d x : ℚ} (h0 : 1/6 ≤ x) (h1 : x ≤ 1/2) :
    Color.hue2rgb mn (mn + d) x = mn + d := by
  unfold Color.hue2rgb
  have a : ¬ x < 0 := by linarith
  have b : ¬ x > 1 := by linarith
  have c : ¬ 6 * x < 1 := by linarith
  simp only [a, b, c, if_false]
  by_cases e : 2 * x < 1
  · rw [if_pos e]
  · have : x = 1/2 := by linarith
    subst this
    norm_num
    ring

theorem hue2rgb_down {mn d x : ℚ} (h0 : 1/2 ≤ x) (h1 : x ≤ 2/3) :
    Color.hue2rgb mn (mn + d) x = mn + d * (4 - 6 * x) := by
  unfold Color.hue2rgb
  have a : ¬ x < 0 := by linarith
  have b : ¬ x > 1 := by linarith
  have c : ¬ 6 * x < 1 := by linarith
  have e : ¬ 2 * x < 1 := by linarith
  simp only [a, b, c, e, if_false]
  by_cases f : 3 * x < 2
  · rw [if_pos f]; ring
  · have : x = 2/3 := by linarith
    subst this
    norm_num

theorem hue2rgb_bottom {mn d x : ℚ} (h0 : 2/3 ≤ x) (h1 : x ≤ 1) :
    Color.hue2rgb mn (mn + d) x = mn := by
  unfold Color.hue2rgb
  have a : ¬ x < 0 := by linarith
  have b : ¬ x > 1 := by linarith
  have c : ¬ 6 * x < 1 := by linarith
  have e : ¬ 2 * x < 1 := by linarith
  have f : ¬ 3 * x < 2 := by linarith
  simp only [a, b, c, e, f, if_false]

theorem hue2rgb_wrap_neg {v1 v2 x : ℚ} (h0 : x < 0) (h1 : -1 < x) :
    Color.hue2rgb v1 v2 x = Color.hue2rgb v1 v2 (x + 1) := by
  have a : ¬ x + 1 < 0 := by linarith
  unfold Color.hue2rgb
  simp only [a, h0, if_false, if_true]

theorem hue2rgb_wrap_pos {v1 v2 x : ℚ} (h0 : 1 < x) (h1 : x ≤ 2) :
    Color.hue2rgb v1 v2 x = Color.hue2rgb v1 v2 (x - 1) := by
  have a : ¬ x < 0 := by linarith
  have b : ¬ x - 1 < 0 := by linarith
  have c : ¬ x - 1 > 1 := by linarith
  unfold Color.hue2rgb
  simp only [a, b, c, if_false, gt_iff_lt, h0, if_true]

/-- The channels recovered from a hue `h` (in turns) when red is the largest channel. -/
theorem recover_r {mn d u : ℚ} (h1 : -1 ≤ u) (h2 : u ≤ 1) :
    let h := if u / 6 < 0 then u / 6 + 1 else u / 6
    Color.hue2rgb mn (mn + d) (h + 1/3) = mn + d ∧
    Color.hue2rgb mn (mn + d) h = mn + d * max u 0 ∧
    Color.hue2rgb mn (mn + d) (h - 1/3) = mn + d * max (-u) 0 := by
  intro h
  rcases lt_or_ge u 0 with hu | hu
  · have : h = u / 6 + 1 := if_pos (by linarith)
    rw [this, max_eq_right hu.le, max_eq_left (by linarith : (0:ℚ) ≤ -u)]
    refine ⟨?_, ?_, ?_⟩
    · rw [hue2rgb_wrap_pos (by linarith) (by linarith), hue2rgb_top (by linarith) (by linarith)]
    · rw [hue2rgb_bottom (by linarith) (by linarith)]; ring
    · rw [hue2rgb_down (by linarith) (by linarith)]; ring
  · have : h = u / 6 := if_neg (by linarith)
    rw [this, max_eq_left hu, max_eq_right (by linarith : -u ≤ 0)]
    refine ⟨?_, ?_, ?_⟩
    · rw [hue2rgb_top (by linarith) (by linarith)]
    · rw [hue2rgb_up (by linarith) (by linarith)]; ring
    · rw [hue2rgb_wrap_neg (by linarith) (by linarith), hue2rgb_bottom (by linarith) (by linarith)]; ring

/-- green largest -/
theorem recover_g {mn d u : ℚ} (h1 : -1 ≤ u) (h2 : u ≤ 1) :
    Color.hue2rgb mn (mn + d) (1/3 + u / 6) = mn + d ∧
    Color.hue2rgb mn (mn + d) (1/3 + u / 6 - 1/3) = mn + d * max u 0 ∧
    Color.hue2rgb mn (mn + d) (1/3 + u / 6 + 1/3) = mn + d * max (-u) 0 := by
  rcases lt_or_ge u 0 with hu | hu
  · rw [max_eq_right hu.le, max_eq_left (by linarith : (0:ℚ) ≤ -u)]
    refine ⟨?_, ?_, ?_⟩
    · rw [hue2rgb_top (by linarith) (by linarith)]
    · rw [hue2rgb_wrap_neg (by linarith) (by linarith), hue2rgb_bottom (by linarith) (by linarith)]; ring
    · rw [hue2rgb_down (by linarith) (by linarith)]; ring
  · rw [max_eq_left hu, max_eq_right (by linarith : -u ≤ 0)]
    refine ⟨?_, ?_, ?_⟩
    · rw [hue2rgb_top (by linarith) (by linarith)]
    · rw [hue2rgb_up (by linarith) (by linarith)]; ring
    · rw [hue2rgb_bottom (by linarith) (by linarith)]; ring

/-- blue largest -/
theorem recover_b {mn d u : ℚ} (h1 : -1 ≤ u) (h2 : u ≤ 1) :
    Color.hue2rgb mn (mn + d) (2/3 + u / 6 - 1/3) = mn + d ∧
    Color.hue2rgb mn (mn + d) (2/3 + u / 6 + 1/3) = mn + d * max u 0 ∧
    Color.hue2rgb mn (mn + d) (2/3 + u / 6) = mn + d * max (-u) 0 := by
  rcases lt_or_ge u 0 with hu | hu
  · rw [max_eq_right hu.le, max_eq_left (by linarith : (0:ℚ) ≤ -u)]
    refine ⟨?_, ?_, ?_⟩
    · rw [hue2rgb_top (by linarith) (by linarith)]
    · rw [hue2rgb_bottom (by linarith) (by linarith)]; ring
    · rw [hue2rgb_down (by linarith) (by linarith)]; ring
  · rw [max_eq_left hu, max_eq_right (by linarith : -u ≤ 0)]
    refine ⟨?_, ?_, ?_⟩
    · rw [hue2rgb_top (by linarith) (by linarith)]
    · rcases eq_or_lt_of_le hu with rfl | hu
      · rw [hue2rgb_bottom (by linarith) (by linarith)]; ring
      · rw [hue2rgb_wrap_pos (by linarith) (by linarith), hue2rgb_up (by linarith) (by linarith)]; ring
    · rw [hue2rgb_bottom (by linarith) (by linarith)]; ring

/-- one channel of the difference -/
theorem diff_channel {d u x y mn : ℚ} (hd : 0 < d) (hu : d * u = x - y) (hx : mn ≤ x) (hy : mn ≤ y)
    (hm : x = mn ∨ y = mn) : mn + d * max u 0 = x ∧ mn + d * max (-u) 0 = y := by
  rcases le_total u 0 with h | h
  · rw [max_eq_right h, max_eq_left (by linarith)]
    have : d * u ≤ 0 := by nlinarith
    rcases hm with rfl | rfl
    · constructor <;> linarith
    · constructor <;> linarith
  · rw [max_eq_left h, max_eq_right (by linarith)]
    have : 0 ≤ d * u := by nlinarith
    rcases hm with rfl | rfl
    · constructor <;> linarith
    · constructor <;> linarith

/-- the channel fractions as the HSL formulas return them -/
def hslFrac (h s l : ℚ) : ℚ × ℚ × ℚ :=
  let v2 := if l < 1 / 2 then l * (1 + s) else (l + s) - s * l
  let v1 := 2 * l - v2
  (Color.hue2rgb v1 v2 (h + 1 / 3), Color.hue2rgb v1 v2 h, Color.hue2rgb v1 v2 (h - 1 / 3))

theorem hsl_round_trip {r g b : ℚ} (hr : 0 ≤ r ∧ r ≤ 1) (hg : 0 ≤ g ∧ g ≤ 1) (hb : 0 ≤ b ∧ b ≤ 1)
    (hne : max (max r g) b ≠ min (min r g) b) :
    hslFrac (Color.hueOf r g b) (Color.satOf r g b) (Color.lightOf r g b) = (r, g, b) := by
  obtain ⟨mx, hmx⟩ : ∃ mx, mx = max (max r g) b := ⟨_, rfl⟩
  obtain ⟨mn, hmn⟩ : ∃ mn, mn = min (min r g) b := ⟨_, rfl⟩
  have lr : mn ≤ r := by rw [hmn]; exact (min_le_left _ _).trans (min_le_left _ _)
  have lg : mn ≤ g := by rw [hmn]; exact (min_le_left _ _).trans (min_le_right _ _)
  have lb : mn ≤ b := by rw [hmn]; exact min_le_right _ _
  have ur : r ≤ mx := by rw [hmx]; exact (le_max_left _ _).trans (le_max_left _ _)
  have ug : g ≤ mx := by rw [hmx]; exact (le_max_right _ _).trans (le_max_left _ _)
  have ub : b ≤ mx := by rw [hmx]; exact le_max_right _ _
  have emx : mx = r ∨ mx = g ∨ mx = b := by
    rw [hmx]
    rcases max_choice (max r g) b with h | h
    · rw [h]; rcases max_choice r g with h | h <;> simp [h]
    · simp [h]
  have emn : mn = r ∨ mn = g ∨ mn = b := by
    rw [hmn]
    rcases min_choice (min r g) b with h | h
    · rw [h]; rcases min_choice r g with h | h <;> simp [h]
    · simp [h]
  have hl : Color.lightOf r g b = (mx + mn) / 2 := by
    unfold Color.lightOf; rw [hmx, hmn]
  have hs : Color.satOf r g b = if mx + mn < 1 then (mx - mn) / (mx + mn) else (mx - mn) / (2 - mx - mn) := by
    unfold Color.satOf
    simp only
    rw [if_neg hne, hmx, hmn]
  have hh : Color.hueOf r g b =
      (let d := mx - mn
       let h := if r = mx then ((mx - b) / 6 + d / 2) / d - ((mx - g) / 6 + d / 2) / d
        else if g = mx then 1 / 3 + ((mx - r) / 6 + d / 2) / d - ((mx - b) / 6 + d / 2) / d
        else 2 / 3 + ((mx - g) / 6 + d / 2) / d - ((mx - r) / 6 + d / 2) / d
       let h := if h < 0 then h + 1 else h
       if h > 1 then h - 1 else h) := by
    unfold Color.hueOf
    simp only
    rw [if_neg (sub_ne_zero.mpr hne), ← hmx, ← hmn]
  rw [← hmx, ← hmn] at hne
  have hd : 0 < mx - mn := by
    have : mn ≤ mx := lr.trans ur
    exact sub_pos.mpr (lt_of_le_of_ne this (Ne.symm hne))
  have hmn0 : 0 ≤ mn := by rcases emn with h | h | h <;> rw [h] <;> [exact hr.1; exact hg.1; exact hb.1]
  have hmx1 : mx ≤ 1 := by rcases emx with h | h | h <;> rw [h] <;> [exact hr.2; exact hg.2; exact hb.2]
  -- v2 and v1
  have hv2 : (if Color.lightOf r g b < 1 / 2 then Color.lightOf r g b * (1 + Color.satOf r g b)
      else (Color.lightOf r g b + Color.satOf r g b) - Color.satOf r g b * Color.lightOf r g b) = mx := by
    rw [hl, hs]
    by_cases c : mx + mn < 1
    · rw [if_pos (by linarith), if_pos c]
      have : mx + mn ≠ 0 := by linarith
      field_simp
      ring
    · rw [if_neg (by linarith), if_neg c]
      have : 2 - mx - mn ≠ 0 := by linarith
      field_simp
      ring
  clear hmx hmn
  obtain ⟨d, rfl⟩ : ∃ d, mx = mn + d := ⟨mx - mn, by ring⟩
  have hd' : 0 < d := by linarith
  have key : ∀ x y : ℚ, mn ≤ x → mn ≤ y → x ≤ mn + d → y ≤ mn + d →
      ∃ u, d * u = x - y ∧ -1 ≤ u ∧ u ≤ 1 := by
    intro x y h1 h2 h3 h4
    refine ⟨(x - y) / d, by field_simp, ?_, ?_⟩
    · rw [le_div_iff₀ hd']; linarith
    · rw [div_le_iff₀ hd']; linarith
  have dsimp : ∀ x y u : ℚ, d * u = x - y → ∀ q,
      q + ((mn + d - y) / 6 + (mn + d - mn) / 2) / (mn + d - mn) - ((mn + d - x) / 6 + (mn + d - mn) / 2) / (mn + d - mn)
        = q + u / 6 := by
    intro x y u hu q
    have e : mn + d - mn = d := by ring
    rw [e]
    have : x = y + d * u := by linarith
    subst this
    have := hd'.ne'
    field_simp
    ring
  unfold hslFrac
  simp only [hv2]
  have e1 : 2 * Color.lightOf r g b - (mn + d) = mn := by rw [hl]; ring
  rw [e1, hh]
  simp only
  by_cases cr : r = mn + d
  · -- red largest
    obtain ⟨u, hu, u1, u2⟩ := key g b lg lb ug ub
    have e2 := dsimp g b u hu 0
    rw [zero_add, zero_add] at e2
    rw [if_pos cr, e2]
    have e3 : ¬ (if u / 6 < 0 then u / 6 + 1 else u / 6) > 1 := by split_ifs <;> linarith
    rw [if_neg e3]
    obtain ⟨p1, p2, p3⟩ := recover_r (mn := mn) (d := d) u1 u2
    have hm : g = mn ∨ b = mn := by
      rcases emn with h | h | h
      · linarith
      · exact Or.inl h.symm
      · exact Or.inr h.symm
    obtain ⟨q1, q2⟩ := diff_channel hd' hu lg lb hm
    rw [p1, p2, p3, q1, q2, cr]
  · by_cases cg : g = mn + d
    · obtain ⟨u, hu, u1, u2⟩ := key b r lb lr ub ur
      rw [if_neg cr, if_pos cg, dsimp b r u hu (1/3)]
      rw [if_neg (by linarith : ¬ (1 / 3 + u / 6 < 0)), if_neg (by linarith : ¬ (1 / 3 + u / 6 > 1))]
      obtain ⟨p1, p2, p3⟩ := recover_g (mn := mn) (d := d) u1 u2
      have hm : b = mn ∨ r = mn := by
        rcases emn with h | h | h
        · exact Or.inr h.symm
        · linarith
        · exact Or.inl h.symm
      obtain ⟨q1, q2⟩ := diff_channel hd' hu lb lr hm
      rw [p1, p2, p3, q1, q2, cg]
    · have cb : b = mn + d := by
        rcases emx with h | h | h
        · exact absurd h.symm cr
        · exact absurd h.symm cg
        · exact h.symm
      obtain ⟨u, hu, u1, u2⟩ := key r g lr lg ur ug
      rw [if_neg cr, if_neg cg, dsimp r g u hu (2/3)]
      rw [if_neg (by linarith : ¬ (2 / 3 + u / 6 < 0)), if_neg (by linarith : ¬ (2 / 3 + u / 6 > 1))]
      obtain ⟨p1, p2, p3⟩ := recover_b (mn := mn) (d := d) u1 u2
      have hm : r = mn ∨ g = mn := by
        rcases emn with h | h | h
        · exact Or.inl h.symm
        · exact Or.inr h.symm
        · linarith
      obtain ⟨q1, q2⟩ := diff_channel hd' hu lr lg hm
      rw [p1, p2, p3, q1, q2, cb]

theorem frac_eq (i : ℕ) (v : ℤ) : Color.frac (8 * i) v = (byte i v : ℚ) / 255 := by
  unfold Color.frac byte
  rw [land_255, Int.shiftRight_eq_div_pow, pow_mul]
  norm_num

theorem frac_range (i : ℕ) (v : ℤ) : 0 ≤ Color.frac (8 * i) v ∧ Color.frac (8 * i) v ≤ 1 := by
  rw [frac_eq]
  have h0 : (0:ℚ) ≤ byte i v := by exact_mod_cast byte_nonneg i v
  have h1 : (byte i v : ℚ) ≤ 255 := by exact_mod_cast byte_le i v
  constructor
  · positivity
  · rw [div_le_one (by norm_num)]; exact h1

theorem hslToInt_of_frac (F : FloatRounding) {h s l o : ℚ} (hs : s ≠ 0) :
    Color.hslToInt F h s l o = Color.rgbToInt F (255 * (hslFrac h s l).1) (255 * (hslFrac h s l).2.1)
      (255 * (hslFrac h s l).2.2) o := by
  unfold Color.hslToInt hslFrac
  rw [if_neg hs]

/-- **C11 (partial).** With exact arithmetic, the hue of a colour in turns, its saturation and its
lightness fed to the HSL-to-RGB conversion give back the red, green and blue of the colour, opaque.
Missing for the full claim: the `hue` property reports degrees while the `hsl` setter expects turns,
so that writing back what was read does not restore the colour, see `C11_write_back_fails`; and the
channel formulas are in exact arithmetic. -/
theorem C11_hsl_turns_partial (F : FloatRounding) (v : ℤ) :
    ∃ s l w, Color.saturation (some v) = some s ∧ Color.lightness (some v) = some l ∧
      Color.setHsl F (Color.hueTurns v) s l = some w ∧
      Color.red (some w) = Color.red (some v) ∧ Color.green (some w) = Color.green (some v) ∧
      Color.blue (some w) = Color.blue (some v) ∧ Color.alpha (some w) = some 255 := by
  refine ⟨_, _, _, rfl, rfl, rfl, ?_⟩
  have f3 := frac_range 3 v
  have f2 := frac_range 2 v
  have f1 := frac_range 1 v
  norm_num only at f1 f2 f3
  have key : Color.hslToInt F (Color.hueTurns v) (Color.satOf (Color.frac 24 v) (Color.frac 16 v) (Color.frac 8 v))
      (Color.lightOf (Color.frac 24 v) (Color.frac 16 v) (Color.frac 8 v)) 1
      = byte 3 v * 2 ^ 24 + byte 2 v * 2 ^ 16 + byte 1 v * 2 ^ 8 + 255 := by
    have e : ∀ i, clampI (byte i v) = byte i v := by
      intro i
      have := byte_nonneg i v
      have := byte_le i v
      unfold clampI; omega
    have e255 : ∀ i, 255 * Color.frac (8 * i) v = ((byte i v : ℤ) : ℚ) := by
      intro i; rw [frac_eq]; ring
    by_cases hne : max (max (Color.frac 24 v) (Color.frac 16 v)) (Color.frac 8 v)
        = min (min (Color.frac 24 v) (Color.frac 16 v)) (Color.frac 8 v)
    · have hs : Color.satOf (Color.frac 24 v) (Color.frac 16 v) (Color.frac 8 v) = 0 := by
        unfold Color.satOf; exact if_pos hne
      have a1 := (min_le_left (min (Color.frac 24 v) (Color.frac 16 v)) (Color.frac 8 v)).trans (min_le_left _ _)
      have a2 := (min_le_left (min (Color.frac 24 v) (Color.frac 16 v)) (Color.frac 8 v)).trans (min_le_right _ _)
      have a3 := min_le_right (min (Color.frac 24 v) (Color.frac 16 v)) (Color.frac 8 v)
      have b1 := (le_max_left (Color.frac 24 v) (Color.frac 16 v)).trans (le_max_left _ (Color.frac 8 v))
      have b2 := (le_max_right (Color.frac 24 v) (Color.frac 16 v)).trans (le_max_left _ (Color.frac 8 v))
      have b3 := le_max_right (max (Color.frac 24 v) (Color.frac 16 v)) (Color.frac 8 v)
      have hl : Color.lightOf (Color.frac 24 v) (Color.frac 16 v) (Color.frac 8 v)
          = max (max (Color.frac 24 v) (Color.frac 16 v)) (Color.frac 8 v) := by
        unfold Color.lightOf; simp only; linarith
      have q1 : Color.frac 24 v = max (max (Color.frac 24 v) (Color.frac 16 v)) (Color.frac 8 v) := by linarith
      have q2 : Color.frac 16 v = max (max (Color.frac 24 v) (Color.frac 16 v)) (Color.frac 8 v) := by linarith
      have q3 : Color.frac 8 v = max (max (Color.frac 24 v) (Color.frac 16 v)) (Color.frac 8 v) := by linarith
      unfold Color.hslToInt
      rw [if_pos hs, hl]
      have g1 := e255 3
      have g2 := e255 2
      have g3 := e255 1
      norm_num only at g1 g2 g3
      rw [q1] at g1
      rw [q2] at g2
      rw [q3] at g3
      have g4 := rgbToInt_opaque F (byte 3 v) (byte 2 v) (byte 1 v)
      rw [← g1, ← g2, ← g3, e, e, e] at g4
      exact g4
    · have hs : Color.satOf (Color.frac 24 v) (Color.frac 16 v) (Color.frac 8 v) ≠ 0 := by
        unfold Color.satOf
        simp only
        rw [if_neg hne]
        have hd : max (max (Color.frac 24 v) (Color.frac 16 v)) (Color.frac 8 v)
          - min (min (Color.frac 24 v) (Color.frac 16 v)) (Color.frac 8 v) ≠ 0 := sub_ne_zero.mpr hne
        have a1 := (min_le_left (min (Color.frac 24 v) (Color.frac 16 v)) (Color.frac 8 v)).trans (min_le_left _ _)
        have b1 := (le_max_left (Color.frac 24 v) (Color.frac 16 v)).trans (le_max_left _ (Color.frac 8 v))
        have hlt := lt_of_le_of_ne (a1.trans b1) (Ne.symm hne)
        have m0 : 0 ≤ min (min (Color.frac 24 v) (Color.frac 16 v)) (Color.frac 8 v) :=
          le_min (le_min f3.1 f2.1) f1.1
        have m1 : max (max (Color.frac 24 v) (Color.frac 16 v)) (Color.frac 8 v) ≤ 1 :=
          max_le (max_le f3.2 f2.2) f1.2
        split_ifs
        · exact div_ne_zero hd (by linarith)
        · exact div_ne_zero hd (by linarith)
      rw [hslToInt_of_frac F hs, Color.hueTurns, hsl_round_trip f3 f2 f1 hne]
      have g1 := e255 3
      have g2 := e255 2
      have g3 := e255 1
      norm_num only at g1 g2 g3
      simp only
      rw [g1, g2, g3, rgbToInt_opaque, e, e, e]
  have hp := pack_get (a := 255) ⟨byte_nonneg 3 v, byte_le 3 v⟩ ⟨byte_nonneg 2 v, byte_le 2 v⟩
    ⟨byte_nonneg 1 v, byte_le 1 v⟩ (by norm_num)
  have g := fun ch => get_eq_byte ch (byte 3 v * 2 ^ 24 + byte 2 v * 2 ^ 16 + byte 1 v * 2 ^ 8 + 255)
  have g' := fun ch => get_eq_byte ch v
  rw [key]
  have r1 := g .red; have r2 := g .green; have r3 := g .blue; have r4 := g .alpha
  have s1 := g' .red; have s2 := g' .green; have s3 := g' .blue
  simp only [Chan.get, Chan.pos, hp.1, hp.2.1, hp.2.2.1, hp.2.2.2] at r1 r2 r3 r4 s1 s2 s3
  rw [r1, r2, r3, r4, s1, s2, s3]
  exact ⟨rfl, rfl, rfl, rfl⟩

/-- **C11.** The HSL conversion always yields a packed value with channels in 0..255. -/
theorem C11_hsl_range (F : FloatRounding) (h s l : ℚ) :
    ∃ w, Color.setHsl F h s l = some w ∧ 0 ≤ w ∧ w < 2 ^ 32 := by
  refine ⟨_, rfl, ?_⟩
  have k : ∀ r g b : ℚ, 0 ≤ Color.rgbToInt F r g b 1 ∧ Color.rgbToInt F r g b 1 < 2 ^ 32 := by
    intro r g b
    obtain ⟨a, a0, a1, -, hv⟩ := rgbToInt_val F r g b 1
    have := clamp255_range r
    have := clamp255_range g
    have := clamp255_range b
    rw [hv]
    constructor <;> omega
  unfold Color.hslToInt
  split_ifs <;> exact k _ _ _

/-- **C11.** Saturation 0 gives a grey. -/
theorem C11_hsl_grey (F : FloatRounding) (h l : ℚ) :
    Color.red (Color.setHsl F h 0 l) = Color.green (Color.setHsl F h 0 l) ∧
    Color.green (Color.setHsl F h 0 l) = Color.blue (Color.setHsl F h 0 l) := by
  obtain ⟨a, a0, a1, -, hv⟩ := rgbToInt_val F (255 * l) (255 * l) (255 * l) 1
  have hw : Color.setHsl F h 0 l = some (Color.rgbToInt F (255 * l) (255 * l) (255 * l) 1) := by
    unfold Color.setHsl Color.hslToInt; rw [if_pos rfl]
  have c := clamp255_range (255 * l)
  have hp := pack_get c c c ⟨a0, a1⟩
  have g := fun ch => get_eq_byte ch (Color.rgbToInt F (255 * l) (255 * l) (255 * l) 1)
  have r1 := g .red; have r2 := g .green; have r3 := g .blue
  rw [hv] at r1 r2 r3
  simp only [Chan.get, Chan.pos, hp.1, hp.2.1, hp.2.2.1] at r1 r2 r3
  rw [hw, hv, r1, r2, r3]
  exact ⟨rfl, rfl⟩

/-- **C11.** Saturation and lightness of every colour lie in 0..1, and the hue in 0..360. -/
theorem C11_getters_range (v : ℤ) :
    ∃ h s l, Color.hue (some v) = some h ∧ Color.saturation (some v) = some s ∧
      Color.lightness (some v) = some l ∧
      0 ≤ h ∧ h ≤ 360 ∧ 0 ≤ s ∧ s ≤ 1 ∧ 0 ≤ l ∧ l ≤ 1 := by
  refine ⟨_, _, _, rfl, rfl, rfl, ?_⟩
  have f3 := frac_range 3 v
  have f2 := frac_range 2 v
  have f1 := frac_range 1 v
  norm_num only at f1 f2 f3
  have hd : min (min (Color.frac 24 v) (Color.frac 16 v)) (Color.frac 8 v)
     ≤ max (max (Color.frac 24 v) (Color.frac 16 v)) (Color.frac 8 v) :=
    ((min_le_left _ _).trans (min_le_left _ _)).trans ((le_max_left _ _).trans (le_max_left _ _))
  have m0 : 0 ≤ min (min (Color.frac 24 v) (Color.frac 16 v)) (Color.frac 8 v) :=
    le_min (le_min f3.1 f2.1) f1.1
  have m1 : max (max (Color.frac 24 v) (Color.frac 16 v)) (Color.frac 8 v) ≤ 1 :=
    max_le (max_le f3.2 f2.2) f1.2
  have a1 := (min_le_left (min (Color.frac 24 v) (Color.frac 16 v)) (Color.frac 8 v)).trans (min_le_left _ _)
  have a2 := (min_le_left (min (Color.frac 24 v) (Color.frac 16 v)) (Color.frac 8 v)).trans (min_le_right _ _)
  have a3 := min_le_right (min (Color.frac 24 v) (Color.frac 16 v)) (Color.frac 8 v)
  have b1 := (le_max_left (Color.frac 24 v) (Color.frac 16 v)).trans (le_max_left _ (Color.frac 8 v))
  have b2 := (le_max_right (Color.frac 24 v) (Color.frac 16 v)).trans (le_max_left _ (Color.frac 8 v))
  have b3 := le_max_right (max (Color.frac 24 v) (Color.frac 16 v)) (Color.frac 8 v)
  have hh : 0 ≤ Color.hueTurns v ∧ Color.hueTurns v ≤ 1 := by
    unfold Color.hueTurns Color.hueOf
    simp only
    generalize max (max (Color.frac 24 v) (Color.frac 16 v)) (Color.frac 8 v) = mx at *
    generalize min (min (Color.frac 24 v) (Color.frac 16 v)) (Color.frac 8 v) = mn at *
    generalize Color.frac 24 v = r at *
    generalize Color.frac 16 v = g at *
    generalize Color.frac 8 v = b at *
    by_cases e : mx - mn = 0
    · rw [if_pos e]; norm_num
    · rw [if_neg e]
      have hpos : 0 < mx - mn := lt_of_le_of_ne (by linarith) (Ne.symm e)
      have q : ∀ x, mn ≤ x → x ≤ mx → 1/2 ≤ ((mx - x) / 6 + (mx - mn) / 2) / (mx - mn) ∧
          ((mx - x) / 6 + (mx - mn) / 2) / (mx - mn) ≤ 2/3 := by
        intro x h1 h2
        constructor
        · rw [le_div_iff₀ hpos]; linarith
        · rw [div_le_iff₀ hpos]; linarith
      have q1 := q r a1 b1
      have q2 := q g a2 b2
      have q3 := q b a3 b3
      generalize ((mx - r) / 6 + (mx - mn) / 2) / (mx - mn) = dr at *
      generalize ((mx - g) / 6 + (mx - mn) / 2) / (mx - mn) = dg at *
      generalize ((mx - b) / 6 + (mx - mn) / 2) / (mx - mn) = db at *
      split_ifs <;> constructor <;> linarith
  refine ⟨by nlinarith [hh.1], by nlinarith [hh.2], ?_, ?_, ?_, ?_⟩
  · unfold Color.satOf
    simp only
    split_ifs with h1 h2
    · exact le_refl _
    · exact div_nonneg (by linarith) (by linarith)
    · exact div_nonneg (by linarith) (by linarith)
  · unfold Color.satOf
    simp only
    have hlt : ¬ max (max (Color.frac 24 v) (Color.frac 16 v)) (Color.frac 8 v)
        = min (min (Color.frac 24 v) (Color.frac 16 v)) (Color.frac 8 v) →
        min (min (Color.frac 24 v) (Color.frac 16 v)) (Color.frac 8 v) <
        max (max (Color.frac 24 v) (Color.frac 16 v)) (Color.frac 8 v) :=
      fun h => lt_of_le_of_ne hd (Ne.symm h)
    split_ifs with h1 h2
    · norm_num
    · rw [div_le_one (by linarith [hlt h1])]; linarith
    · rw [div_le_one (by linarith [hlt h1])]; linarith
  · unfold Color.lightOf
    simp only
    linarith
  · unfold Color.lightOf
    simp only
    linarith

/-- **C11, negation of the write-back claim.** Reading `hsl` from green and writing the triple back
gives black: the hue is read in degrees and written in turns. -/
theorem C11_write_back_fails (F : FloatRounding) :
    Color.hue (some 0x00FF00FF) = some 120 ∧ Color.saturation (some 0x00FF00FF) = some 1 ∧
    Color.lightness (some 0x00FF00FF) = some (1/2) ∧
    Color.setHsl F 120 1 (1/2) = some 0x000000FF := by
  refine ⟨by decide +kernel, by decide +kernel, by decide +kernel, ?_⟩
  have h : hslFrac 120 1 (1/2) = (0, 0, 0) := by decide +kernel
  unfold Color.setHsl
  rw [hslToInt_of_frac F (by norm_num), h]
  have := rgbToInt_opaque F 0 0 0
  have e : clampI 0 = 0 := by decide
  rw [e] at this
  simp only [mul_zero]
  norm_num at this
  rw [this]

example : Color.hueTurns 0x336699FF = 7/12 := by decide +kernel
example : Color.setHsl FloatRounding.id (7/12) (1/2) (2/5) = some 0x336699FF := by decide +kernel

end Svgio.Props
