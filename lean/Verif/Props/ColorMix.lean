import Verif.Lemmas.Color
import Mathlib.Tactic.Positivity
import Mathlib.Tactic.FieldSimp
import Mathlib.Tactic.IntervalCases

/-! C09, C10: compositing and distance. -/

namespace Svgio.Props
open Svgio.Spec

/-! ### C09 -/

/-- Porter-Duff "over" of one channel, as an exact fraction: numerator of the mixed channel. -/
def mixNum (x1 a1 x2 a2 : ℤ) : ℤ := x1 * a1 * 255 + x2 * a2 * (255 - a1)

/-- the denominator, `255 *` (resulting alpha) -/
def mixDen (a1 a2 : ℤ) : ℤ := a1 * 255 + a2 * (255 - a1)

/-- float truncation of an exact quotient of integers is the exact integer quotient -/
theorem trunc_quot (F : FloatRounding) {n d : ℤ} (hn : 0 ≤ n) (hd : 0 < d) (hdb : d ≤ 2 ^ 20)
    (hq : n ≤ 255 * d) : ⌊F.fl ((n : ℚ) / d)⌋ = n / d := by
  have dq : (0:ℚ) < d := by exact_mod_cast hd
  have h0 : 0 ≤ n / d := Int.ediv_nonneg hn hd.le
  have h1 : n / d ≤ 255 := by
    have := Int.ediv_le_ediv hd hq
    rwa [Int.mul_ediv_cancel _ hd.ne'] at this
  by_cases hr : n % d = 0
  · have e : ((n:ℚ) / d) = ((n / d : ℤ) : ℚ) := by
      rw [Int.cast_div (Int.dvd_of_emod_eq_zero hr) dq.ne']
    have hx : F.fl ((n / d : ℤ) : ℚ) = (n / d : ℤ) := F.exact _ (by rw [abs_of_nonneg h0]; omega)
    rw [e, hx, Int.floor_intCast]
  · have hrpos : 0 < n % d := lt_of_le_of_ne (Int.emod_nonneg _ hd.ne') (Ne.symm hr)
    have hrlt : n % d < d := Int.emod_lt_of_pos _ hd
    have hsplit : n = d * (n / d) + n % d := (Int.mul_ediv_add_emod n d).symm
    have hqv : (n:ℚ) / d = (n / d : ℤ) + ((n % d : ℤ) : ℚ) / d := by
      rw [eq_comm, add_comm, div_add' _ _ _ dq.ne', div_left_inj' dq.ne']
      have : (n:ℚ) = ((d * (n / d) + n % d : ℤ) : ℚ) := by rw [← hsplit]
      rw [this]; push_cast; ring
    have hlo : (1:ℚ) / 2 ^ 20 ≤ ((n % d : ℤ) : ℚ) / d := by
      rw [div_le_div_iff₀ (by positivity) dq]
      have h2 : (d:ℚ) ≤ 2 ^ 20 := by exact_mod_cast hdb
      have h3 : (1:ℚ) ≤ (n % d : ℤ) := by exact_mod_cast hrpos
      nlinarith
    have hhi : ((n % d : ℤ) : ℚ) / d ≤ 1 - 1 / 2 ^ 20 := by
      rw [div_le_iff₀ dq]
      have h2 : (d:ℚ) ≤ 2 ^ 20 := by exact_mod_cast hdb
      have h3 : ((n % d : ℤ) : ℚ) ≤ d - 1 := by exact_mod_cast (by omega : n % d ≤ d - 1)
      have : (d:ℚ) / 2 ^ 20 ≤ 1 := by rw [div_le_one (by positivity)]; exact h2
      linarith
    have q0 : (0:ℚ) ≤ (n / d : ℤ) := by exact_mod_cast h0
    have q1 : ((n / d : ℤ) : ℚ) ≤ 255 := by exact_mod_cast h1
    have e := fl_near F (x := (n:ℚ) / d) (M := 256) (by
      rw [abs_of_nonneg (by positivity), hqv]; linarith)
    rw [abs_le] at e
    rw [Int.floor_eq_iff]
    constructor <;> linarith

theorem exactI (F : FloatRounding) {n : ℤ} (h : |n| ≤ 2 ^ 53) {x : ℚ} (e : x = n) : F.fl x = n := by
  rw [e]; exact F.exact n h

/-- the value computed by `over` for a translucent top colour: exactly the integer Porter-Duff
formulas, whatever the float rounding -/
theorem over_val (F : FloatRounding) (v1 v2 : ℤ) (h0 : byte 0 v1 ≠ 0) (h255 : byte 0 v1 ≠ 255) :
    ∃ w, Color.over F (some v1) (some v2) = .ok (some w) ∧ 0 ≤ w ∧ w < 2 ^ 32 ∧
      (∀ ch : Chan, ch ≠ .alpha → ch.get (some w) = some
        (mixNum (byte ch.pos v1) (byte 0 v1) (byte ch.pos v2) (byte 0 v2)
          / mixDen (byte 0 v1) (byte 0 v2))) ∧
      ∃ a, Color.alpha (some w) = some a ∧ |2 * (255 * a - mixDen (byte 0 v1) (byte 0 v2))| < 255 := by
  have c0 : Int.land v1 0xFF = byte 0 v1 := by rw [land_255]; unfold byte; simp
  have c0' : Int.land v2 0xFF = byte 0 v2 := by rw [land_255]; unfold byte; simp
  have c3 : ∀ v : ℤ, Int.land (v >>> (24:ℕ)) 0xFF = byte 3 v := by
    intro v; rw [land_255, Int.shiftRight_eq_div_pow]; unfold byte; norm_num
  have c2 : ∀ v : ℤ, Int.land (v >>> (16:ℕ)) 0xFF = byte 2 v := by
    intro v; rw [land_255, Int.shiftRight_eq_div_pow]; unfold byte; norm_num
  have c1 : ∀ v : ℤ, Int.land (v >>> (8:ℕ)) 0xFF = byte 1 v := by
    intro v; rw [land_255, Int.shiftRight_eq_div_pow]; unfold byte; norm_num
  have n1 := byte_nonneg 0 v1
  have n2 := byte_nonneg 0 v2
  have l1 := byte_le 0 v1
  have l2 := byte_le 0 v2
  set a1 := byte 0 v1 with ha1
  set a2 := byte 0 v2 with ha2
  -- bounds
  have p1 : 0 ≤ a2 * (255 - a1) := mul_nonneg n2 (by omega)
  have p2 : a2 * (255 - a1) ≤ 255 * 255 := by nlinarith
  have dpos : 0 < mixDen a1 a2 := by unfold mixDen; omega
  have dle : mixDen a1 a2 ≤ 65025 := by unfold mixDen; nlinarith
  have hq : F.fl (255 - (a1:ℚ)) = ((255 - a1 : ℤ) : ℚ) := exactI F (by rw [abs_le]; omega) (by push_cast; ring)
  have hsa : F.fl (F.fl ((a1:ℚ) * 255) + F.fl ((a2:ℚ) * ((255 - a1 : ℤ) : ℚ))) = (mixDen a1 a2 : ℤ) := by
    rw [exactI F (n := a1 * 255) (x := (a1:ℚ) * 255) (by rw [abs_le]; omega) (by push_cast; ring),
      exactI F (n := a2 * (255 - a1)) (x := (a2:ℚ) * ((255 - a1 : ℤ) : ℚ)) (by rw [abs_le]; omega) (by push_cast; ring)]
    exact exactI F (by rw [abs_le]; omega) (by unfold mixDen; push_cast; ring)
  have hmix : ∀ x1 x2 : ℤ, 0 ≤ x1 → x1 ≤ 255 → 0 ≤ x2 → x2 ≤ 255 →
      0 ≤ mixNum x1 a1 x2 a2 ∧ mixNum x1 a1 x2 a2 ≤ 255 * mixDen a1 a2 ∧
      F.fl (F.fl (((x1 * a1 : ℤ) : ℚ) * 255) + F.fl (((x2 * a2 : ℤ) : ℚ) * ((255 - a1 : ℤ) : ℚ)))
        = (mixNum x1 a1 x2 a2 : ℤ) := by
    intro x1 x2 hx1 hx1' hx2 hx2'
    have m1 : 0 ≤ x1 * a1 := mul_nonneg hx1 n1
    have m1' : x1 * a1 ≤ 255 * a1 := mul_le_mul_of_nonneg_right hx1' n1
    have m2 : 0 ≤ x2 * (a2 * (255 - a1)) := mul_nonneg hx2 p1
    have m2' : x2 * (a2 * (255 - a1)) ≤ 255 * (a2 * (255 - a1)) := mul_le_mul_of_nonneg_right hx2' p1
    have eq2 : x2 * a2 * (255 - a1) = x2 * (a2 * (255 - a1)) := by ring
    have b1 : 0 ≤ mixNum x1 a1 x2 a2 := by unfold mixNum; rw [eq2]; omega
    have b2 : mixNum x1 a1 x2 a2 ≤ 255 * mixDen a1 a2 := by unfold mixNum mixDen; rw [eq2]; linarith
    refine ⟨b1, b2, ?_⟩
    rw [exactI F (n := x1 * a1 * 255) (x := ((x1 * a1 : ℤ) : ℚ) * 255) (by rw [abs_le]; omega) (by push_cast; ring),
      exactI F (n := x2 * a2 * (255 - a1)) (x := ((x2 * a2 : ℤ) : ℚ) * ((255 - a1 : ℤ) : ℚ)) (by rw [eq2, abs_le]; omega) (by push_cast; ring)]
    exact exactI F (by rw [abs_le]; omega) (by unfold mixNum; push_cast; ring)
  have hchan : ∀ x1 x2 : ℤ, 0 ≤ x1 → x1 ≤ 255 → 0 ≤ x2 → x2 ≤ 255 →
      clamp255 (F.fl (F.fl (F.fl (((x1 * a1 : ℤ) : ℚ) * 255) + F.fl (((x2 * a2 : ℤ) : ℚ) * ((255 - a1 : ℤ) : ℚ)))
        / (mixDen a1 a2 : ℤ))) = mixNum x1 a1 x2 a2 / mixDen a1 a2 := by
    intro x1 x2 hx1 hx1' hx2 hx2'
    obtain ⟨b1, b2, b3⟩ := hmix x1 x2 hx1 hx1' hx2 hx2'
    rw [b3, clamp255, trunc_quot F b1 dpos (by omega) b2]
    have g0 : 0 ≤ mixNum x1 a1 x2 a2 / mixDen a1 a2 := Int.ediv_nonneg b1 dpos.le
    have g1 : mixNum x1 a1 x2 a2 / mixDen a1 a2 ≤ 255 := by
      have := Int.ediv_le_ediv dpos b2
      rwa [Int.mul_ediv_cancel _ dpos.ne'] at this
    omega
  have hover : Color.over F (some v1) (some v2) = .ok (some (Color.rgbToInt F
      (F.fl (F.fl (F.fl (((byte 3 v1 * a1 : ℤ) : ℚ) * 255) + F.fl (((byte 3 v2 * a2 : ℤ) : ℚ) * ((255 - a1 : ℤ) : ℚ)))
        / (mixDen a1 a2 : ℤ)))
      (F.fl (F.fl (F.fl (((byte 2 v1 * a1 : ℤ) : ℚ) * 255) + F.fl (((byte 2 v2 * a2 : ℤ) : ℚ) * ((255 - a1 : ℤ) : ℚ)))
        / (mixDen a1 a2 : ℤ)))
      (F.fl (F.fl (F.fl (((byte 1 v1 * a1 : ℤ) : ℚ) * 255) + F.fl (((byte 1 v2 * a2 : ℤ) : ℚ) * ((255 - a1 : ℤ) : ℚ)))
        / (mixDen a1 a2 : ℤ)))
      (F.fl (((mixDen a1 a2 : ℤ) : ℚ) / F.fl (255 * 255))))) := by
    unfold Color.over
    have : Color.alpha (some v1) = some a1 := by rw [Color.alpha, c0]
    simp only [this, Option.some.injEq, if_neg h255, if_neg h0, c0, c0', c1, c2, c3, hq, hsa]
  refine ⟨_, hover, ?_⟩
  obtain ⟨a, ha0, ha255, hae, hv⟩ := rgbToInt_val F
      (F.fl (F.fl (F.fl (((byte 3 v1 * a1 : ℤ) : ℚ) * 255) + F.fl (((byte 3 v2 * a2 : ℤ) : ℚ) * ((255 - a1 : ℤ) : ℚ)))
        / (mixDen a1 a2 : ℤ)))
      (F.fl (F.fl (F.fl (((byte 2 v1 * a1 : ℤ) : ℚ) * 255) + F.fl (((byte 2 v2 * a2 : ℤ) : ℚ) * ((255 - a1 : ℤ) : ℚ)))
        / (mixDen a1 a2 : ℤ)))
      (F.fl (F.fl (F.fl (((byte 1 v1 * a1 : ℤ) : ℚ) * 255) + F.fl (((byte 1 v2 * a2 : ℤ) : ℚ) * ((255 - a1 : ℤ) : ℚ)))
        / (mixDen a1 a2 : ℤ)))
      (F.fl (((mixDen a1 a2 : ℤ) : ℚ) / F.fl (255 * 255)))
  have k3 := hchan (byte 3 v1) (byte 3 v2) (byte_nonneg _ _) (byte_le _ _) (byte_nonneg _ _) (byte_le _ _)
  have k2 := hchan (byte 2 v1) (byte 2 v2) (byte_nonneg _ _) (byte_le _ _) (byte_nonneg _ _) (byte_le _ _)
  have k1 := hchan (byte 1 v1) (byte 1 v2) (byte_nonneg _ _) (byte_le _ _) (byte_nonneg _ _) (byte_le _ _)
  have r3 := clamp255_range (F.fl (F.fl (F.fl (((byte 3 v1 * a1 : ℤ) : ℚ) * 255) + F.fl (((byte 3 v2 * a2 : ℤ) : ℚ) * ((255 - a1 : ℤ) : ℚ)))
        / (mixDen a1 a2 : ℤ)))
  have r2 := clamp255_range (F.fl (F.fl (F.fl (((byte 2 v1 * a1 : ℤ) : ℚ) * 255) + F.fl (((byte 2 v2 * a2 : ℤ) : ℚ) * ((255 - a1 : ℤ) : ℚ)))
        / (mixDen a1 a2 : ℤ)))
  have r1 := clamp255_range (F.fl (F.fl (F.fl (((byte 1 v1 * a1 : ℤ) : ℚ) * 255) + F.fl (((byte 1 v2 * a2 : ℤ) : ℚ) * ((255 - a1 : ℤ) : ℚ)))
        / (mixDen a1 a2 : ℤ)))
  rw [k3] at r3; rw [k2] at r2; rw [k1] at r1
  rw [k3, k2, k1] at hv
  rw [hv]
  obtain ⟨g3, g2, g1, g0⟩ := pack_get r3 r2 r1 ⟨ha0, ha255⟩
  refine ⟨by omega, by omega, ?_, a, ?_, ?_⟩
  · intro ch hch
    rw [get_eq_byte]
    cases ch
    · exact congrArg some g3
    · exact congrArg some g2
    · exact congrArg some g1
    · exact absurd rfl hch
  · rw [show Color.alpha = Chan.alpha.get from rfl, get_eq_byte]
    exact congrArg some g0
  · -- alpha: nearest integer to mixDen / 255
    set d := mixDen a1 a2 with hd
    have dq0 : (0:ℚ) < d := by exact_mod_cast dpos
    have dq1 : (d:ℚ) ≤ 65025 := by exact_mod_cast dle
    have hc : F.fl ((255:ℚ) * 255) = 65025 := by
      have := exactI F (n := 65025) (by norm_num) (x := 255 * 255) (by norm_num)
      rw [this]; norm_num
    rw [hc] at hae
    have e1 := fl_near F (x := (d:ℚ) / 65025) (M := 1) (by
      rw [abs_of_nonneg (by positivity), div_le_one (by norm_num)]; exact dq1)
    set y := F.fl ((d:ℚ) / 65025) with hy
    rw [abs_le] at e1
    set z := (if (if y > 1 then 1 else y) < 0 then 0 else if y > 1 then 1 else y) with hz
    have e2 : |z - (d:ℚ) / 65025| ≤ 1 / 2 ^ 53 + 1 / 2 ^ 60 := by
      have u : (d:ℚ) / 65025 ≤ 1 := by rw [div_le_one (by norm_num)]; exact dq1
      have l : 0 < (d:ℚ) / 65025 := by positivity
      rw [hz, abs_le]
      split_ifs <;> constructor <;> linarith
    have e3 := fl_near F (x := z * 255) (M := 256) (by
      have u : (d:ℚ) / 65025 ≤ 1 := by rw [div_le_one (by norm_num)]; exact dq1
      have l : 0 < (d:ℚ) / 65025 := by positivity
      rw [abs_le] at e2 ⊢
      constructor <;> linarith)
    have e4 := pyRound_err (F.fl (z * 255))
    set n := pyRound (F.fl (z * 255)) with hn
    have e5 : |(n:ℚ) - (d:ℚ) / 255| < 1 / 2 + 1 / 1000 := by
      rw [abs_le] at e2 e3 e4
      rw [abs_lt]
      constructor <;> linarith
    -- |255 n - d| < 127.5 + 0.255, so 2|255 n - d| ≤ 255; parity excludes equality
    have e6 : |(2 * (255 * n - d) : ℚ)| < 256 := by
      rw [abs_lt] at e5 ⊢
      constructor <;> linarith
    have e7 : |2 * (255 * n - d)| < 256 := by
      have : ((|2 * (255 * n - d)| : ℤ) : ℚ) < 256 := by push_cast; exact e6
      exact_mod_cast this
    have hnr : 0 ≤ n ∧ n ≤ 255 := by
      rw [abs_lt] at e7; omega
    have : a = n := by rw [hae]; unfold clampI; omega
    rw [this]
    rw [abs_lt] at e7 ⊢
    omega

/-- **C09.** An opaque top colour hides the bottom one, a fully transparent one leaves it. -/
theorem C09_over_extremes (F : FloatRounding) (c1 c2 : Option ℤ) :
    (Color.alpha c1 = some 255 → Color.over F c1 c2 = .ok c1) ∧
    (Color.alpha c1 = some 0 → Color.over F c1 c2 = .ok c2) := by
  constructor
  · intro h; simp [Color.over, h]
  · intro h; simp [Color.over, h]

/-- **C09.** For a translucent top colour the result is a valid colour, each colour channel lies
between the two input channels (one of them counted only if the bottom colour is visible at all), and
the alpha is, up to half a unit, `a1 + a2 (255 - a1) / 255`. -/
theorem C09_over_between (F : FloatRounding) (v1 v2 : ℤ) (h0 : Color.alpha (some v1) ≠ some 0)
    (h255 : Color.alpha (some v1) ≠ some 255) :
    ∃ w, Color.over F (some v1) (some v2) = .ok (some w) ∧ 0 ≤ w ∧ w < 2 ^ 32 ∧
      (∀ ch : Chan, ch ≠ .alpha → ∃ x x1 x2, ch.get (some w) = some x ∧ ch.get (some v1) = some x1 ∧
        ch.get (some v2) = some x2 ∧ min x1 x2 ≤ x ∧ x ≤ max x1 x2) ∧
      ∃ a a1 a2, Color.alpha (some w) = some a ∧ Color.alpha (some v1) = some a1 ∧
        Color.alpha (some v2) = some a2 ∧ |2 * (255 * a - (255 * a1 + a2 * (255 - a1)))| < 255 ∧
        a1 ≤ a ∧ a2 ≤ a := by
  have hal : ∀ v, Color.alpha (some v) = some (byte 0 v) := fun v => get_eq_byte .alpha v
  rw [hal] at h0 h255
  have h0' : byte 0 v1 ≠ 0 := fun e => h0 (by rw [e])
  have h255' : byte 0 v1 ≠ 255 := fun e => h255 (by rw [e])
  obtain ⟨w, hw, hw0, hw1, hch, a, ha, hab⟩ := over_val F v1 v2 h0' h255'
  have n1 := byte_nonneg 0 v1
  have n2 := byte_nonneg 0 v2
  have l1 := byte_le 0 v1
  have l2 := byte_le 0 v2
  have p1 : 0 ≤ byte 0 v2 * (255 - byte 0 v1) := mul_nonneg n2 (by omega)
  have dpos : 0 < mixDen (byte 0 v1) (byte 0 v2) := by unfold mixDen; omega
  refine ⟨w, hw, hw0, hw1, ?_, a, byte 0 v1, byte 0 v2, ha, hal v1, hal v2, ?_, ?_, ?_⟩
  · intro ch hne
    refine ⟨_, _, _, hch ch hne, get_eq_byte ch v1, get_eq_byte ch v2, ?_, ?_⟩
    · rw [Int.le_ediv_iff_mul_le dpos]
      unfold mixNum mixDen
      set x1 := byte ch.pos v1
      set x2 := byte ch.pos v2
      have m1 : min x1 x2 * (byte 0 v1 * 255) ≤ x1 * (byte 0 v1 * 255) :=
        mul_le_mul_of_nonneg_right (min_le_left _ _) (by omega)
      have m2 : min x1 x2 * (byte 0 v2 * (255 - byte 0 v1)) ≤ x2 * (byte 0 v2 * (255 - byte 0 v1)) :=
        mul_le_mul_of_nonneg_right (min_le_right _ _) p1
      nlinarith
    · have hlt : mixNum (byte ch.pos v1) (byte 0 v1) (byte ch.pos v2) (byte 0 v2)
          ≤ max (byte ch.pos v1) (byte ch.pos v2) * mixDen (byte 0 v1) (byte 0 v2) := by
        unfold mixNum mixDen
        set x1 := byte ch.pos v1
        set x2 := byte ch.pos v2
        have m1 : x1 * (byte 0 v1 * 255) ≤ max x1 x2 * (byte 0 v1 * 255) :=
          mul_le_mul_of_nonneg_right (le_max_left _ _) (by omega)
        have m2 : x2 * (byte 0 v2 * (255 - byte 0 v1)) ≤ max x1 x2 * (byte 0 v2 * (255 - byte 0 v1)) :=
          mul_le_mul_of_nonneg_right (le_max_right _ _) p1
        nlinarith
      have := Int.ediv_le_ediv dpos hlt
      rwa [Int.mul_ediv_cancel _ dpos.ne'] at this
  · unfold mixDen at hab
    rwa [mul_comm 255 (byte 0 v1)]
  · unfold mixDen at hab
    rw [abs_lt] at hab
    omega
  · unfold mixDen at hab
    rw [abs_lt] at hab
    have : byte 0 v1 * 255 + byte 0 v2 * (255 - byte 0 v1) = byte 0 v2 * 255 + byte 0 v1 * (255 - byte 0 v2) := by
      ring
    have p2 : 0 ≤ byte 0 v1 * (255 - byte 0 v2) := mul_nonneg n1 (by omega)
    omega

/-- **C09.** A colour without a value cannot be composited (unless hidden): TypeError. -/
theorem C09_over_none (F : FloatRounding) (c : Option ℤ) : Color.over F none c = .error .typeError := by
  simp [Color.over, Color.alpha]

/-- **C09.** `blend` stores `over(other, self)`; with an opacity it first gives the other colour that
opacity. -/
theorem C09_blend (F : FloatRounding) (self other : Option ℤ) (o : ℚ) :
    Color.blend F self other none = Color.over F other self ∧
    (∀ c, Color.setOpacity F other o = .ok c → Color.blend F self other (some o) = Color.over F c self) ∧
    (other = none → Color.blend F self other (some o) = .error .valueError) := by
  refine ⟨rfl, ?_, ?_⟩
  · intro c h; simp [Color.blend, h]
  · rintro rfl; rfl

example : Color.over FloatRounding.id (some 0xFF000080) (some 0x0000FFFF) = .ok (some 0x80007FFF) := by
  decide +kernel

/-! ### C10 -/

theorem distanceSq_bytes (v1 v2 : ℤ) : Color.distanceSq (some v1) (some v2) =
    .ok ((((512 + (byte 3 v1 + byte 3 v2) / 2) * (byte 3 v1 - byte 3 v2) * (byte 3 v1 - byte 3 v2)) / 256
      + 4 * (byte 2 v1 - byte 2 v2) * (byte 2 v1 - byte 2 v2)
      + (767 - (byte 3 v1 + byte 3 v2) / 2) * (byte 1 v1 - byte 1 v2) * (byte 1 v1 - byte 1 v2)) / 256) := by
  have c3 : ∀ v : ℤ, Int.land (v >>> (24:ℕ)) 0xFF = byte 3 v := by
    intro v; rw [land_255, Int.shiftRight_eq_div_pow]; unfold byte; norm_num
  have c2 : ∀ v : ℤ, Int.land (v >>> (16:ℕ)) 0xFF = byte 2 v := by
    intro v; rw [land_255, Int.shiftRight_eq_div_pow]; unfold byte; norm_num
  have c1 : ∀ v : ℤ, Int.land (v >>> (8:ℕ)) 0xFF = byte 1 v := by
    intro v; rw [land_255, Int.shiftRight_eq_div_pow]; unfold byte; norm_num
  simp only [Color.distanceSq, c3, c2, c1]
  simp only [Int.shiftRight_eq_div_pow]
  norm_num

/-- **C10 (partial).** `distance_sq` of two colours is symmetric, never negative, zero between colours
with equal rgb, and ignores alpha. The claim "zero only for equal rgb" is false of the code, see
`C10_distance_zero_unequal`. -/
theorem C10_distance_partial (v1 v2 : ℤ) :
    ∃ d, Color.distanceSq (some v1) (some v2) = .ok d ∧ Color.distanceSq (some v2) (some v1) = .ok d ∧
      0 ≤ d ∧
      (Color.rgb (some v1) = Color.rgb (some v2) → d = 0) ∧
      (∀ w2, Color.rgb (some w2) = Color.rgb (some v2) → Color.distanceSq (some v1) (some w2) = .ok d) := by
  refine ⟨_, distanceSq_bytes v1 v2, ?_, ?_, ?_, ?_⟩
  · rw [distanceSq_bytes]
    rw [add_comm (byte 3 v2) (byte 3 v1)]
    congr 2
    have e : ∀ a b c : ℤ, c * (a - b) * (a - b) = c * (b - a) * (b - a) := by intros; ring
    rw [e (byte 3 v2), e (byte 2 v2), e (byte 1 v2)]
  · have n1 := byte_nonneg 3 v1
    have n2 := byte_nonneg 3 v2
    have l1 := byte_le 3 v1
    have l2 := byte_le 3 v2
    have t : ∀ c x : ℤ, 0 ≤ c → 0 ≤ c * x * x := by
      intro c x hc; rw [mul_assoc]; exact mul_nonneg hc (mul_self_nonneg x)
    apply Int.ediv_nonneg _ (by norm_num)
    have := Int.ediv_nonneg (t (512 + (byte 3 v1 + byte 3 v2) / 2) (byte 3 v1 - byte 3 v2) (by omega)) (by norm_num : (0:ℤ) ≤ 256)
    have := t 4 (byte 2 v1 - byte 2 v2) (by omega)
    have := t (767 - (byte 3 v1 + byte 3 v2) / 2) (byte 1 v1 - byte 1 v2) (by omega)
    omega
  · intro h
    simp only [Color.rgb, Option.some.injEq, Int.shiftRight_eq_div_pow] at h
    have hb : ∀ i, 1 ≤ i → byte i v1 = byte i v2 := by
      intro i hi
      obtain ⟨j, rfl⟩ := Nat.exists_eq_add_of_le hi
      unfold byte
      rw [pow_add, ← Int.ediv_ediv_of_nonneg (by norm_num), ← Int.ediv_ediv_of_nonneg (by norm_num)]
      norm_num at h ⊢
      rw [h]
    rw [hb 3 (by norm_num), hb 2 (by norm_num), hb 1 (by norm_num)]
    simp
  · intro w2 h
    simp only [Color.rgb, Option.some.injEq, Int.shiftRight_eq_div_pow] at h
    have hb : ∀ i, 1 ≤ i → byte i w2 = byte i v2 := by
      intro i hi
      obtain ⟨j, rfl⟩ := Nat.exists_eq_add_of_le hi
      unfold byte
      rw [pow_add, ← Int.ediv_ediv_of_nonneg (by norm_num), ← Int.ediv_ediv_of_nonneg (by norm_num)]
      norm_num at h ⊢
      rw [h]
    rw [distanceSq_bytes, hb 3 (by norm_num), hb 2 (by norm_num), hb 1 (by norm_num)]

/-- **C10.** Different colours can have distance 0 (here rgb 0,0,0 and 0,7,0): `>> 8` is applied to the
whole sum. -/
theorem C10_distance_zero_unequal :
    Color.distanceSq (some 0x000000FF) (some 0x000700FF) = .ok 0 ∧
    Color.eq (some 0x000000FF) (some 0x000700FF) = false := by decide +kernel

/-- **C10 (partial).** How far the last claim fails: if the distance is 0 then the blue channels are equal
and the others differ by less than 12 (red) and 8 (green). -/
theorem C10_distance_zero_close_partial (v1 v2 : ℤ) (h : Color.distanceSq (some v1) (some v2) = .ok 0) :
    byte 1 v1 = byte 1 v2 ∧ |byte 2 v1 - byte 2 v2| < 8 ∧ |byte 3 v1 - byte 3 v2| < 12 := by
  rw [distanceSq_bytes] at h
  have h : _ / 256 = (0:ℤ) := Except.ok.inj h
  have n1 := byte_nonneg 3 v1
  have n2 := byte_nonneg 3 v2
  have l1 := byte_le 3 v1
  have l2 := byte_le 3 v2
  set m := (byte 3 v1 + byte 3 v2) / 2 with hm
  have m0 : 0 ≤ m := by omega
  have m1 : m ≤ 255 := by omega
  set r := byte 3 v1 - byte 3 v2 with hr
  set g := byte 2 v1 - byte 2 v2 with hg
  set b := byte 1 v1 - byte 1 v2 with hb
  have t : ∀ c x : ℤ, 0 ≤ c → 0 ≤ c * x * x := by
    intro c x hc; rw [mul_assoc]; exact mul_nonneg hc (mul_self_nonneg x)
  have tr := t (512 + m) r (by omega)
  have tg := t 4 g (by omega)
  have tb := t (767 - m) b (by omega)
  have hlt : (512 + m) * r * r / 256 + 4 * g * g + (767 - m) * b * b < 256 := by omega
  have hr0 : 0 ≤ (512 + m) * r * r / 256 := Int.ediv_nonneg tr (by norm_num)
  refine ⟨?_, ?_, ?_⟩
  · have hb0 : b * b = 0 := by
      by_contra hne
      have : 1 ≤ b * b := by have := mul_self_nonneg b; omega
      nlinarith
    have : b = 0 := by simpa using hb0
    omega
  · have : g * g < 64 := by nlinarith
    rw [abs_lt]; constructor <;> nlinarith
  · have : (512 + m) * r * r < 65536 := by omega
    have : 512 * (r * r) < 65536 := by nlinarith [mul_self_nonneg r]
    have : r * r < 128 := by omega
    rw [abs_lt]; constructor <;> nlinarith

example : Color.distanceSq (some 0x102030FF) (some 0x605040FF) = .ok 802 := by decide +kernel

end Svgio.Props
