import Verif.Lemmas.ColorFloat
import Verif.Props.FloatEnds

/-!
C128: hue, saturation and lightness, percentages and opacities of colours with the rounding of floats.
-/

namespace Svgio.Props

open Spec

/-- `n` is `x` cut to a whole number, with a very small error allowed -/
def CutTo (n : ℤ) (x : ℚ) : Prop := (n : ℚ) ≤ x + 1 / 2 ^ 25 ∧ x < n + 1 + 1 / 2 ^ 25

/-- `n` is `x` rounded to a whole number, with a very small error allowed -/
def RoundedTo25 (n : ℤ) (x : ℚ) : Prop := |(n : ℚ) - x| ≤ 1 / 2 + 1 / 2 ^ 25

/-- a float near 6.28 -/
def TauLike (tau : ℚ) : Prop := 6 ≤ tau ∧ tau ≤ 7

namespace ColorFloat

open Color.Flt

variable {F : FloatRounding} {tau : ℚ}

theorem u_units : 10000000 * u ≤ 1 / 2 ^ 25 := by unfold u; norm_num

theorem clamp_cut {n : ℤ} {r L : ℚ} (hn : n = clamp255 r) (h : |r - 255 * L| ≤ 1 / 2 ^ 25) (h0 : 0 ≤ L) (h1 : L ≤ 1) : CutTo n (255 * L) := by
  subst hn
  have f1 := Int.floor_le r
  have f2 := Int.lt_floor_add_one r
  unfold CutTo clamp255
  have hM : ((max 0 (min 255 ⌊r⌋) : ℤ) : ℚ) = max 0 (min 255 (⌊r⌋ : ℚ)) := by push_cast; rfl
  rw [hM]
  rw [abs_le] at h
  generalize (⌊r⌋ : ℚ) = m at *
  rcases max_cases (0 : ℚ) (min 255 m) with ⟨a, a'⟩ | ⟨a, a'⟩ <;> rw [a] <;>
    rcases min_cases (255 : ℚ) m with ⟨b, b'⟩ | ⟨b, b'⟩ <;> rw [b] at a' <;> try rw [b]
  all_goals constructor <;> linarith [h.1, h.2]

theorem hsl_near {h s l : ℚ} (o : ℚ) (hs : Near01 s) (hl : Near01 l) (h1 : -2 / 3 - 2 * u ≤ h) (h2 : h ≤ 5 / 3 + 2 * u) :
    ∃ r g b, Color.Flt.hslToInt F h s l o = Color.rgbToInt F r g b o ∧ |r - 255 * level h s l (1 / 3)| ≤ 300000 * u ∧
      |g - 255 * level h s l 0| ≤ 300000 * u ∧ |b - 255 * level h s l (-1 / 3)| ≤ 300000 * u := by
  have u0 := u_pos
  have u1 := u_small
  unfold Color.Flt.hslToInt
  by_cases c : s = 0
  · rw [if_pos c]
    have e : ∀ k, level h s l k = l := by
      intro k
      unfold level
      rw [c]
      ring
    have f := rnd (F := F) (x := 255 * l) (M := 300) (by rw [abs_le]; constructor <;> linarith [hl.1, hl.2]) (by norm_num)
    refine ⟨_, _, _, rfl, ?_, ?_, ?_⟩ <;> rw [e] <;> linarith
  · rw [if_neg c]
    have e := rnd8 (F := F) (x := 1 / 3) (by norm_num)
    have e1 := rnd8 (F := F) (x := h + F.fl (1 / 3)) (by rw [abs_le]; constructor <;> linarith [e.1, e.2])
    have e2 := rnd8 (F := F) (x := h - F.fl (1 / 3)) (by rw [abs_le]; constructor <;> linarith [e.1, e.2])
    refine ⟨_, _, _, rfl, ?_, ?_, ?_⟩
    · refine channel_near (F := F) hs hl ?_ (by linarith) (by linarith)
      rw [abs_le]; constructor <;> linarith [e.1, e.2, e1.1, e1.2]
    · refine channel_near (F := F) hs hl ?_ (by linarith) (by linarith)
      rw [abs_le]; constructor <;> linarith
    · refine channel_near (F := F) hs hl ?_ (by linarith) (by linarith)
      rw [abs_le]; constructor <;> linarith [e.1, e.2, e2.1, e2.2]

/-! ### Texts -/

theorem limit_near {B x y : ℚ} (hB : 0 ≤ B) (hB' : B ≤ 255) (h : |y - x| ≤ (|x| + 1) * u) : |limit 0 B y - limit 0 B x| ≤ 1000 * u := by
  have u0 := u_pos
  have u1 := u_small
  unfold limit
  by_cases c : |x| ≤ 500
  · have k1 := abs_min_sub_min_le_max B y B x
    have k2 := abs_max_sub_max_le_max 0 (min B y) 0 (min B x)
    rw [sub_self, abs_zero] at k1 k2
    have := k2.trans (max_le (abs_nonneg _) (k1.trans (max_le (abs_nonneg _) le_rfl)))
    have m : (|x| + 1) * u ≤ 501 * u := mul_le_mul_of_nonneg_right (by linarith) u0.le
    linarith
  · have n := abs_nonneg x
    have m : (|x| + 1) * u ≤ (|x| + 1) * (1 / 10 ^ 14) := mul_le_mul_of_nonneg_left u1 (by linarith)
    have h' := abs_le.1 (h.trans m)
    rcases lt_or_ge x 0 with d | d
    · rw [abs_of_neg d] at *
      have : y ≤ 0 := by linarith [h'.2]
      rw [max_eq_left ((min_le_right B y).trans this), max_eq_left ((min_le_right B x).trans d.le), sub_self, abs_zero]
      linarith
    · rw [abs_of_nonneg d] at *
      have : B ≤ y := by linarith [h'.1]
      rw [min_eq_left this, min_eq_left (by linarith), sub_self, abs_zero]
      linarith

theorem fl_rel (x : ℚ) : |F.fl x - x| ≤ (|x| + 1) * u / 8 := by
  have e := F.err x
  have t := tiny
  have h3 : (|x| + 1) * u / 8 = |x| / 2 ^ 53 + 1 / 2 ^ 53 + (|x| + 1) / 2 ^ 53 := by unfold u; ring
  have n : 0 ≤ (|x| + 1) / 2 ^ 53 := by positivity
  have t2 : (1 : ℚ) / 2 ^ 60 ≤ 1 / 2 ^ 53 := by norm_num
  rw [h3]
  linarith

theorem percent_near (x : ℚ) : |F.fl (F.fl x / 100) - x / 100| ≤ (|x / 100| + 1) * u := by
  have u0 := u_pos
  have u1 := u_small
  have e1 := fl_rel (F := F) x
  have e2 := fl_rel (F := F) (F.fl x / 100)
  have a : |F.fl x / 100 - x / 100| = |F.fl x - x| / 100 := by rw [← sub_div, abs_div, abs_of_pos (by norm_num : (0 : ℚ) < 100)]
  have b : |x / 100| = |x| / 100 := by rw [abs_div, abs_of_pos (by norm_num : (0 : ℚ) < 100)]
  have n := abs_nonneg x
  have c : |F.fl x / 100 - x / 100| ≤ (|x / 100| + 1) * u / 8 := by
    rw [a, b]
    nlinarith
  have d : |F.fl x / 100| ≤ 2 * |x / 100| + 1 := by
    have := abs_add_le (F.fl x / 100 - x / 100) (x / 100)
    rw [sub_add_cancel] at this
    have n := abs_nonneg (x / 100)
    nlinarith
  have e : (|F.fl x / 100| + 1) * u / 8 ≤ (2 * |x / 100| + 2) * u / 8 := by
    have : (|F.fl x / 100| + 1) * u ≤ (2 * |x / 100| + 2) * u := mul_le_mul_of_nonneg_right (by linarith) u0.le
    linarith
  have t := abs_add_le (F.fl (F.fl x / 100) - F.fl x / 100) (F.fl x / 100 - x / 100)
  rw [sub_add_sub_cancel] at t
  have n := abs_nonneg (x / 100)
  nlinarith

theorem turns_near {x : ℚ} (ht : TauLike tau) (h : |x| ≤ 600) : |F.fl (F.fl (F.fl (tau * F.fl x) / 360) / tau) - x / 360| ≤ 2 * u := by
  have u0 := u_pos
  have u1 := u_small
  obtain ⟨t0, t1⟩ := ht
  have tp : 0 < tau := by linarith
  have tn : tau ≠ 0 := tp.ne'
  have e1 := rnd (F := F) h (by norm_num)
  have b1 : |F.fl x| ≤ 601 := by
    have := abs_add_le (F.fl x - x) x
    rw [sub_add_cancel] at this
    linarith
  generalize F.fl x = y at *
  have b2 : |tau * y| ≤ 5000 := by
    rw [abs_mul, abs_of_pos tp]
    nlinarith [abs_nonneg y]
  have e2 := rnd (F := F) b2 (by norm_num)
  have c2 : |F.fl (tau * y) - tau * x| ≤ 1200 * u := by
    have t := abs_add_le (F.fl (tau * y) - tau * y) (tau * (y - x))
    rw [abs_mul, abs_of_pos tp] at t
    rw [show F.fl (tau * y) - tau * x = F.fl (tau * y) - tau * y + tau * (y - x) by ring]
    have : tau * |y - x| ≤ 7 * (600 * u / 8) := mul_le_mul t1 e1 (abs_nonneg _) (by norm_num)
    linarith
  have bx : |tau * x| ≤ 4200 := by
    rw [abs_mul, abs_of_pos tp]
    nlinarith [abs_nonneg x]
  generalize F.fl (tau * y) = z at *
  have b3 : |z / 360| ≤ 12 := by
    rw [abs_le] at *
    constructor <;> linarith
  have e3 := rnd (F := F) b3 (by norm_num)
  have c3 : |F.fl (z / 360) - tau * (x / 360)| ≤ 5 * u := by
    rw [abs_le] at *
    constructor <;> linarith
  have bx' : |tau * (x / 360)| ≤ 12 := by
    rw [abs_le] at *
    constructor <;> linarith
  generalize F.fl (z / 360) = w at *
  have c4 : |w / tau - x / 360| ≤ u := by
    rw [show w / tau - x / 360 = (w - tau * (x / 360)) / tau by field_simp, abs_div, abs_of_pos tp, div_le_iff₀ tp]
    nlinarith
  have b4 : |w / tau| ≤ 8 := by
    have : |x / 360| ≤ 2 := by rw [abs_le] at *; constructor <;> linarith
    rw [abs_le] at *
    constructor <;> linarith
  have e4 := rnd8 (F := F) b4
  rw [abs_le] at *
  constructor <;> linarith [e4.1, e4.2]

/-- the level of CSS -/
theorem level_css {h0 s l : ℚ} (hh : -240 ≤ h0 ∧ h0 ≤ 600) : level (h0 / 360) s l (1 / 3) = hslLevel h0 s l 0 ∧
    level (h0 / 360) s l 0 = hslLevel h0 s l 8 ∧ level (h0 / 360) s l (-1 / 3) = hslLevel h0 s l 4 := by
  have key : ∀ k n, -1 ≤ h0 / 360 + k → h0 / 360 + k ≤ 2 → mod12 (12 * (h0 / 360 + k) + 8) = mod12 (n + h0 / 30) →
      level (h0 / 360) s l k = hslLevel h0 s l n := by
    intro k n k1 k2 e
    have w := hue2rgb_wave (v1 := l - s * min l (1 - l)) (v2 := l + s * min l (1 - l)) k1 k2
    rw [hue2rgb_level _ _ _ k1 k2, e] at w
    unfold hslLevel level
    simp only
    rw [w]
    ring
  refine ⟨key _ _ (by linarith [hh.1]) (by linarith [hh.2]) ?_, key _ _ (by linarith [hh.1]) (by linarith [hh.2]) ?_,
    key _ _ (by linarith [hh.1]) (by linarith [hh.2]) ?_⟩
  · have e : 12 * (h0 / 360 + 1 / 3) + 8 = (0 + h0 / 30) + 12 := by ring
    rw [e]
    unfold mod12
    rw [add_div, div_self (by norm_num), Int.floor_add_one]
    push_cast
    ring
  · congr 1; ring
  · congr 1; ring

theorem level_range {h0 s l n : ℚ} (hs : 0 ≤ s ∧ s ≤ 1) (hl : 0 ≤ l ∧ l ≤ 1) : 0 ≤ hslLevel h0 s l n ∧ hslLevel h0 s l n ≤ 1 := by
  have A0 : 0 ≤ min l (1 - l) := le_min hl.1 (by linarith [hl.2])
  have A1 : s * min l (1 - l) ≤ min l (1 - l) := mul_le_of_le_one_left A0 hs.2
  have A2 : 0 ≤ s * min l (1 - l) := mul_nonneg hs.1 A0
  have A3 := min_le_left l (1 - l)
  have A4 := min_le_right l (1 - l)
  unfold hslLevel
  simp only
  generalize mod12 (n + h0 / 30) = k
  have m1 : -1 ≤ max (-1) (min (min (k - 3) (9 - k)) 1) := le_max_left _ _
  have m2 : max (-1) (min (min (k - 3) (9 - k)) 1) ≤ 1 := max_le (by norm_num) (min_le_right _ _)
  generalize max (-1) (min (min (k - 3) (9 - k)) 1) = m at *
  generalize s * min l (1 - l) = q at *
  have := mul_le_mul_of_nonneg_left m1 A2
  have := mul_le_mul_of_nonneg_left m2 A2
  constructor <;> linarith

theorem opac_near {v4 : Option (List Char)} {o : ℚ} (h4 : Opacity v4 o) {a : ℤ} (ha : Rounded a (limit 0 1 (Color.Flt.opac F v4) * 255)) :
    RoundedTo25 a (limit 0 1 o * 255) := by
  have u0 := u_pos
  have u1 := u_small
  have k : |limit 0 1 (Color.Flt.opac F v4) - limit 0 1 o| ≤ 1000 * u := by
    cases v4 with
    | none =>
      have : o = 1 := h4
      rw [this]
      unfold Color.Flt.opac
      rw [sub_self, abs_zero]
      linarith
    | some t =>
      have e : Color.Flt.opac F (some t) = F.fl o := by
        have : Color.Flt.opac F (some t) = F.fl (floatVal t) := rfl
        rw [this, value_floatVal h4]
      rw [e]
      refine limit_near (by norm_num) (by norm_num) ((fl_rel o).trans ?_)
      nlinarith [abs_nonneg o]
  unfold Rounded at ha
  unfold RoundedTo25
  have t : (1 : ℚ) / 2 ^ 40 + 255000 * u ≤ 1 / 2 ^ 25 := by unfold u; norm_num
  rw [abs_le] at *
  constructor <;> linarith

theorem near01_limit (x : ℚ) : Near01 (limit 0 1 x) := by
  obtain ⟨a, b⟩ := limit_mem (zero_le_one (α := ℚ)) x
  exact ⟨by linarith, by linarith⟩

theorem parse_hsl (F : FloatRounding) (tau : ℚ) (pyInt : List Char → Option ℤ) {v1 v2 v3 s : List Char} {v4 : Option (List Char)}
    (h : FunText "hsl".toList false true true v1 v2 v3 v4 s) :
    Color.Flt.parse F tau pyInt (some s) = .ok (some (Color.Flt.parseHsl F tau (v1, v2, v3, v4))) := by
  have hp := funText_paren h
  unfold Color.Flt.parse
  simp only
  rw [if_neg (paren_not_none hp), paren_not_hex hp, hsl_no_rgb h, hsl_no_rgb h, (matchFun_iff _ _ _ _ _ _ _ _ _).2 h]
  rfl

theorem parse_rgbp (F : FloatRounding) (tau : ℚ) (pyInt : List Char → Option ℤ) {v1 v2 v3 s : List Char} {v4 : Option (List Char)}
    (h : FunText "rgb".toList true true true v1 v2 v3 v4 s) :
    Color.Flt.parse F tau pyInt (some s) = .ok (some (Color.Flt.parseRgbp F (v1, v2, v3, v4))) := by
  have hp := funText_paren h
  unfold Color.Flt.parse
  simp only
  rw [if_neg (paren_not_none hp), paren_not_hex hp, percent_no_match h, (matchFun_iff _ _ _ _ _ _ _ _ _).2 h]
  rfl

theorem percent25 (F : FloatRounding) (x : ℚ) :
    RoundedTo25 (clampI (pyRound (F.fl (F.fl x * F.fl (255 / 100))))) (limit 0 255 (x / 100 * 255)) := by
  have h := percent_rounded F (F.fl x)
  have u0 := u_pos
  have k := limit_near (B := 255) (x := x / 100 * 255) (y := F.fl x / 100 * 255) (by norm_num) le_rfl (by
    have e := fl_rel (F := F) x
    have b : |x / 100 * 255| = |x| * (255 / 100) := by
      rw [div_mul_eq_mul_div, abs_div, abs_mul]
      norm_num
      ring
    have a : |F.fl x / 100 * 255 - x / 100 * 255| = |F.fl x - x| * (255 / 100) := by
      rw [show F.fl x / 100 * 255 - x / 100 * 255 = (F.fl x - x) * (255 / 100) by ring, abs_mul]
      norm_num
    rw [a, b]
    nlinarith [abs_nonneg x])
  unfold Rounded at h
  unfold RoundedTo25
  have t : (1 : ℚ) / 2 ^ 40 + 1000 * u ≤ 1 / 2 ^ 25 := by unfold u; norm_num
  rw [abs_le] at *
  constructor <;> linarith

end ColorFloat

open Color.Flt ColorFloat

/-- **C128**, hue, saturation and lightness with floats: for hues from -240 to 600 degrees the channels are 255 times the level that CSS
defines, cut to a whole number, up to a very small error. Missing for the whole claim: as for `C124_hsl_partial`. -/
theorem C128_hsl_partial (F : FloatRounding) {tau : ℚ} (ht : TauLike tau) (pyInt : List Char → Option ℤ) {s v1 v2 v3 : List Char}
    {v4 : Option (List Char)} {h0 s0 l0 o : ℚ} (h : FunText "hsl".toList false true true v1 v2 v3 v4 s)
    (h1 : Value v1 h0) (h2 : Value v2 s0) (h3 : Value v3 l0) (h4 : Opacity v4 o) (hh : -240 ≤ h0 ∧ h0 ≤ 600) :
    ∃ c r g b a, Color.Flt.parse F tau pyInt (some s) = .ok (some c) ∧
      Color.red (some c) = some r ∧ CutTo r (255 * hslLevel h0 (limit 0 1 (s0 / 100)) (limit 0 1 (l0 / 100)) 0) ∧
      Color.green (some c) = some g ∧ CutTo g (255 * hslLevel h0 (limit 0 1 (s0 / 100)) (limit 0 1 (l0 / 100)) 8) ∧
      Color.blue (some c) = some b ∧ CutTo b (255 * hslLevel h0 (limit 0 1 (s0 / 100)) (limit 0 1 (l0 / 100)) 4) ∧
      Color.alpha (some c) = some a ∧ RoundedTo25 a (limit 0 1 o * 255) := by
  have u0 := u_pos
  have u1 := u_small
  have hp := ColorFloat.parse_hsl F tau pyInt h
  unfold Color.Flt.parseHsl Color.Flt.turnsOf Color.Flt.floatOf at hp
  simp only [clamp01_limit] at hp
  rw [value_floatVal h1, value_floatVal h2, value_floatVal h3] at hp
  have bs := limit_near (by norm_num) (by norm_num) (percent_near (F := F) s0) (B := 1)
  have bl := limit_near (by norm_num) (by norm_num) (percent_near (F := F) l0) (B := 1)
  have bh := turns_near (F := F) (x := h0) ht (by rw [abs_le]; constructor <;> linarith [hh.1, hh.2])
  have ns := near01_limit (F.fl (F.fl s0 / 100))
  have nl := near01_limit (F.fl (F.fl l0 / 100))
  have Ns := near01_limit (s0 / 100)
  have Nl := near01_limit (l0 / 100)
  have Ls := limit_mem (zero_le_one (α := ℚ)) (s0 / 100)
  have Ll := limit_mem (zero_le_one (α := ℚ)) (l0 / 100)
  generalize F.fl (F.fl (F.fl (tau * F.fl h0) / 360) / tau) = hf at *
  generalize limit 0 1 (F.fl (F.fl s0 / 100)) = sf at *
  generalize limit 0 1 (F.fl (F.fl l0 / 100)) = lf at *
  generalize limit 0 1 (s0 / 100) = sa at *
  generalize limit 0 1 (l0 / 100) = li at *
  obtain ⟨b1, b2⟩ := abs_le.1 bh
  obtain ⟨r, g, b, e, k1, k2, k3⟩ := hsl_near (F := F) (Color.Flt.opac F v4) ns nl (h := hf) (by linarith [hh.1]) (by linarith [hh.2])
  obtain ⟨m1, m2, m3⟩ := level_css (s := sa) (l := li) hh
  have fin : ∀ k z, |z - 255 * level hf sf lf k| ≤ 300000 * u → |z - 255 * level (h0 / 360) sa li k| ≤ 1 / 2 ^ 25 := by
    intro k z hz
    have l1 := level_lip (h := hf) (s := sf) (h' := h0 / 360) (k := k) Ns nl Nl
    have w := wave3_lip (hf + k) (h0 / 360 + k)
    rw [add_sub_add_right_eq_sub] at w
    have t := u_units
    have l2 : |level hf sf lf k - level (h0 / 360) sa li k| ≤ 22000 * u := by linarith
    rw [abs_le] at hz l2 ⊢
    constructor <;> linarith
  obtain ⟨c1, c2, c3, a, c4, c5⟩ := rgbToInt_get F r g b (Color.Flt.opac F v4)
  rw [← e] at c1 c2 c3 c4
  refine ⟨_, _, _, _, a, hp, c1, ?_, c2, ?_, c3, ?_, c4, opac_near h4 c5⟩
  · rw [← m1]
    refine clamp_cut rfl (fin _ _ k1) ?_ ?_ <;> rw [m1]
    · exact (level_range Ls Ll).1
    · exact (level_range Ls Ll).2
  · rw [← m2]
    refine clamp_cut rfl (fin _ _ k2) ?_ ?_ <;> rw [m2]
    · exact (level_range Ls Ll).1
    · exact (level_range Ls Ll).2
  · rw [← m3]
    refine clamp_cut rfl (fin _ _ k3) ?_ ?_ <;> rw [m3]
    · exact (level_range Ls Ll).1
    · exact (level_range Ls Ll).2

/-- **C128** `rgb(p1%, p2%, p3%)` with floats: the channels are the percentages of 255, limited and rounded, up to a very small error. -/
theorem C128_percent (F : FloatRounding) (tau : ℚ) (pyInt : List Char → Option ℤ) {s v1 v2 v3 : List Char} {v4 : Option (List Char)}
    {x1 x2 x3 o : ℚ} (h : FunText "rgb".toList true true true v1 v2 v3 v4 s)
    (h1 : Value v1 x1) (h2 : Value v2 x2) (h3 : Value v3 x3) (h4 : Opacity v4 o) :
    ∃ c r g b a, Color.Flt.parse F tau pyInt (some s) = .ok (some c) ∧ Color.red (some c) = some r ∧ Color.green (some c) = some g ∧
      Color.blue (some c) = some b ∧ Color.alpha (some c) = some a ∧
      RoundedTo25 r (limit 0 255 (x1 / 100 * 255)) ∧ RoundedTo25 g (limit 0 255 (x2 / 100 * 255)) ∧
      RoundedTo25 b (limit 0 255 (x3 / 100 * 255)) ∧ RoundedTo25 a (limit 0 1 o * 255) := by
  have hp := ColorFloat.parse_rgbp F tau pyInt h
  unfold Color.Flt.parseRgbp Color.Flt.floatOf at hp
  simp only at hp
  rw [value_floatVal h1, value_floatVal h2, value_floatVal h3] at hp
  obtain ⟨k1, k2, k3, a, k4, k5⟩ := rgbToInt_get F (pyRound (F.fl (F.fl x1 * F.fl (255 / 100))) : ℤ)
    (pyRound (F.fl (F.fl x2 * F.fl (255 / 100))) : ℤ) (pyRound (F.fl (F.fl x3 * F.fl (255 / 100))) : ℤ) (Color.Flt.opac F v4)
  refine ⟨_, _, _, _, a, hp, k1, k2, k3, k4, ?_, ?_, ?_, opac_near h4 k5⟩
  · rw [clamp255_int]; exact percent25 F x1
  · rw [clamp255_int]; exact percent25 F x2
  · rw [clamp255_int]; exact percent25 F x3

/-- the hypotheses are met: `hsl(120,100%,25%)` and `rgb(12%,100%,25%)`, with the double nearest to a full turn -/
example : FunText "hsl".toList false true true "120".toList "100".toList "25".toList none "hsl(120,100%,25%)".toList ∧
    FunText "rgb".toList true true true "12".toList "100".toList "25".toList none "rgb(12%,100%,25%)".toList ∧
    Value "120".toList 120 ∧ TauLike (884279719003555 / 2 ^ 47) := by
  refine ⟨?_, ?_, ?_, by unfold TauLike; norm_num⟩
  · exact funText_plain "hsl".toList false true true (v1 := "120".toList) (v2 := "100".toList) (v3 := "25".toList)
      (number_of_digits (by unfold Digits IsDigit; decide) (by decide)) (number_of_digits (by unfold Digits IsDigit; decide) (by decide))
      (number_of_digits (by unfold Digits IsDigit; decide) (by decide))
  · exact funText_plain "rgb".toList true true true (v1 := "12".toList) (v2 := "100".toList) (v3 := "25".toList)
      (number_of_digits (by unfold Digits IsDigit; decide) (by decide)) (number_of_digits (by unfold Digits IsDigit; decide) (by decide))
      (number_of_digits (by unfold Digits IsDigit; decide) (by decide))
  · have := value_of_digits (show Digits "120".toList by unfold Digits IsDigit; decide) (by decide)
    rwa [show whole "120".toList = 120 by decide] at this

end Svgio.Props
