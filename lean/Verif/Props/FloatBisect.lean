import Verif.Model.FloatBisect
import Verif.Props.ColorMeasureFloat
import Verif.Props.FloatEnds
import Verif.Props.LengthAccuracy
import Verif.Props.FloatBox

/-!
C159: lengths found by bisection with floats.
-/

namespace Svgio.Props

open Svgio.Flt Spec

namespace FloatBisect

variable (H : FloatHypot)

theorem between_doubles {a b x : ℚ} (ha : IsDouble a) (hb : IsDouble b) (h1 : a ≤ x) (h2 : x ≤ b) : a ≤ roundDouble x ∧ roundDouble x ≤ b :=
  ⟨(roundDouble_double ha) ▸ roundDouble_mono h1, (roundDouble_double hb) ▸ roundDouble_mono h2⟩

/-- twice a double is a double -/
theorem double_twice {x : ℚ} (h : IsDouble x) : IsDouble (2 * x) := by
  obtain ⟨k, m, rfl, hk, hm⟩ := h
  exact ⟨k, m + 1, by rw [zpow_add₀ (by norm_num)]; ring, hk, by omega⟩

/-- the parameter in the middle -/
def mid (a b : ℚ) : ℚ := roundDouble (roundDouble (a + b) / 2)

theorem mid_between {a b : ℚ} (ha : IsDouble a) (hb : IsDouble b) (h : a ≤ b) : a ≤ mid a b ∧ mid a b ≤ b := by
  obtain ⟨h1, h2⟩ := between_doubles (x := a + b) (double_twice ha) (double_twice hb) (by linarith) (by linarith)
  exact between_doubles ha hb (by linarith) (by linarith)

theorem mid_double (a b : ℚ) : IsDouble (mid a b) := roundDouble_isDouble _

/-- no double lies between -/
def Stuck (a b : ℚ) : Prop := ∀ x, IsDouble x → a ≤ x → x ≤ b → x = a ∨ x = b

theorem stuck_mid {a b : ℚ} (ha : IsDouble a) (hb : IsDouble b) (h : a ≤ b) (hs : Stuck a b) : mid a b = a ∨ mid a b = b :=
  hs _ (mid_double a b) (mid_between ha hb h).1 (mid_between ha hb h).2

theorem stuck_same (a : ℚ) : Stuck a a := fun x _ h1 h2 => .inl (le_antisymm h2 h1)

theorem dyadic_double {j : ℤ} {k : ℕ} (h : |j| ≤ 2 ^ 53) (hk : k ≤ 1074) : IsDouble (j / 2 ^ k) :=
  ⟨j, -(k : ℤ), by rw [zpow_neg, zpow_natCast]; rfl, h, by omega⟩

/-- the two ends of a part are neighbouring doubles, or the middle is a double -/
theorem dyadic_stuck {j k : ℕ} (h : 2 ^ 53 < 2 * j + 1 ∨ 1074 ≤ k) : Stuck ((j : ℚ) / 2 ^ k) (((j : ℚ) + 1) / 2 ^ k) := by
  rintro x ⟨c, m, rfl, hc, hm⟩ h1 h2
  have h2k : (0 : ℚ) < 2 ^ k := by positivity
  rw [div_le_iff₀ h2k] at h1
  rw [le_div_iff₀ h2k] at h2
  rw [eq_div_iff h2k.ne', eq_div_iff h2k.ne']
  by_cases key : -(k : ℤ) ≤ m
  swap
  · rcases h with h | h
    · have hj : (2 : ℚ) ^ 52 ≤ j := by
        have : 2 ^ 52 ≤ j := by omega
        exact_mod_cast this
      have e : (2 : ℚ) ^ m * 2 ^ k ≤ 1 / 2 := by
        rw [← zpow_natCast, ← zpow_add₀ (by norm_num)]
        have : (2 : ℚ) ^ (m + (k : ℤ)) ≤ 2 ^ (-1 : ℤ) := zpow_le_zpow_right₀ (by norm_num) (by omega)
        refine this.trans (by norm_num)
      have hc' : (c : ℚ) ≤ 2 ^ 53 := by exact_mod_cast (abs_le.1 hc).2
      have e0 : (0 : ℚ) < 2 ^ m * 2 ^ k := by positivity
      have h3 : (c : ℚ) * (2 ^ m * 2 ^ k) ≤ 2 ^ 53 * (1 / 2) := by
        calc (c : ℚ) * (2 ^ m * 2 ^ k) ≤ 2 ^ 53 * (2 ^ m * 2 ^ k) := mul_le_mul_of_nonneg_right hc' e0.le
          _ ≤ _ := mul_le_mul_of_nonneg_left e (by norm_num)
      left
      rw [← mul_assoc] at h3
      refine le_antisymm ?_ h1
      linarith
    · omega
  have e : (c : ℚ) * 2 ^ m * 2 ^ k = ((c * 2 ^ (m + k).toNat : ℤ) : ℚ) := by
    push_cast
    rw [mul_assoc, ← zpow_natCast, ← zpow_natCast, ← zpow_add₀ (by norm_num), Int.toNat_of_nonneg (by omega)]
  rw [e] at h1 h2 ⊢
  have h1' : (j : ℤ) ≤ c * 2 ^ (m + k).toNat := by exact_mod_cast h1
  have h2' : c * 2 ^ (m + k).toNat ≤ (j : ℤ) + 1 := by exact_mod_cast h2
  rcases (show c * 2 ^ (m + k).toNat = (j : ℤ) ∨ c * 2 ^ (m + k).toNat = (j : ℤ) + 1 by omega) with h | h
  · left; rw [h]; norm_num
  · right; rw [h]; push_cast; rfl

theorem mid_dyadic {j k : ℕ} (hj : 2 * j + 1 ≤ 2 ^ 53) (hk : k < 1074) :
    mid ((j : ℚ) / 2 ^ k) (((j : ℚ) + 1) / 2 ^ k) = ((2 * j + 1 : ℕ) : ℚ) / 2 ^ (k + 1) := by
  have hj' : |((2 * j + 1 : ℕ) : ℤ)| ≤ 2 ^ 53 := by
    rw [abs_of_nonneg (by positivity)]; exact_mod_cast hj
  have e1 : (j : ℚ) / 2 ^ k + ((j : ℚ) + 1) / 2 ^ k = ((2 * j + 1 : ℕ) : ℤ) / 2 ^ k := by push_cast; ring
  have e2 : ((((2 * j + 1 : ℕ) : ℤ) : ℚ) / 2 ^ k) / 2 = ((2 * j + 1 : ℕ) : ℤ) / 2 ^ (k + 1) := by rw [pow_succ]; ring
  unfold mid
  rw [e1, roundDouble_double (dyadic_double hj' (by omega)), e2, roundDouble_double (dyadic_double hj' (by omega))]
  rfl

theorem chord_self (p : Pt ℚ) : chord doubles H p p = 0 := by
  unfold chord
  rw [sub_self, sub_self, fl_zero]
  exact H.zero

/-- one step, for points on the curve -/
theorem step (f : ℚ → Pt ℚ) (error : ℚ) (n fuel : ℕ) (a b : ℚ) (depth : ℕ) :
    segmentLength doubles H f error n (fuel + 1) a b (f a) (f b) depth =
      if roundDouble (roundDouble (chord doubles H (f (mid a b)) (f a) + chord doubles H (f b) (f (mid a b))) - chord doubles H (f b) (f a)) > error
          ∨ depth < n then
        match segmentLength doubles H f error n fuel a (mid a b) (f a) (f (mid a b)) (depth + 1) with
        | .error e => .error e
        | .ok l1 =>
          match segmentLength doubles H f error n fuel (mid a b) b (f (mid a b)) (f b) (depth + 1) with
          | .error e => .error e
          | .ok l2 => .ok (roundDouble (l1 + l2))
      else .ok (roundDouble (chord doubles H (f (mid a b)) (f a) + chord doubles H (f b) (f (mid a b)))) := rfl

/-- neighbouring doubles: nothing is gained by another step -/
theorem stuck_gain {f : ℚ → Pt ℚ} {a b : ℚ} (h : mid a b = a ∨ mid a b = b) :
    roundDouble (chord doubles H (f (mid a b)) (f a) + chord doubles H (f b) (f (mid a b))) = chord doubles H (f b) (f a) := by
  rcases h with h | h <;> rw [h, chord_self]
  · rw [zero_add]; exact H.double _ _
  · rw [add_zero]; exact H.double _ _

theorem stuck_ends (f : ℚ → Pt ℚ) {error : ℚ} (he : 0 ≤ error) (n : ℕ) :
    ∀ (fuel : ℕ) (a b : ℚ) (depth : ℕ), IsDouble a → IsDouble b → a ≤ b → Stuck a b → n + 1 ≤ fuel + depth → 0 < fuel →
      ∃ L, segmentLength doubles H f error n fuel a b (f a) (f b) depth = .ok L
  | 0, a, b, depth, _, _, _, _, _, hf => absurd hf (lt_irrefl 0)
  | fuel + 1, a, b, depth, ha, hb, hab, hs, hf, _ => by
    have hm := stuck_mid ha hb hab hs
    rw [step, stuck_gain H hm, sub_self, show roundDouble 0 = 0 from fl_zero doubles]
    split_ifs with hc
    · have hd : depth < n := by
        rcases hc with h | h
        · exact absurd h (not_lt.2 he)
        · exact h
      have s1 : Stuck a (mid a b) := by
        rcases hm with h | h <;> rw [h]
        · exact stuck_same a
        · exact hs
      have s2 : Stuck (mid a b) b := by
        rcases hm with h | h <;> rw [h]
        · exact hs
        · exact stuck_same b
      obtain ⟨l1, e1⟩ := stuck_ends f he n fuel a (mid a b) (depth + 1) ha (mid_double a b) (mid_between ha hb hab).1 s1 (by omega) (by omega)
      obtain ⟨l2, e2⟩ := stuck_ends f he n fuel (mid a b) b (depth + 1) (mid_double a b) hb (mid_between ha hb hab).2 s2 (by omega) (by omega)
      rw [e1, e2]
      exact ⟨_, rfl⟩
    · exact ⟨_, rfl⟩

theorem dyadic_ends (f : ℚ → Pt ℚ) {error : ℚ} (he : 0 ≤ error) (n : ℕ) :
    ∀ (fuel j k : ℕ), j < 2 ^ k → k ≤ 1074 → j + 1 ≤ 2 ^ 53 → n + 1 ≤ fuel + k → 1075 ≤ fuel + k →
      ∃ L, segmentLength doubles H f error n fuel ((j : ℚ) / 2 ^ k) (((j : ℚ) + 1) / 2 ^ k) (f ((j : ℚ) / 2 ^ k)) (f (((j : ℚ) + 1) / 2 ^ k)) k = .ok L
  | 0, j, k, hj, hk, hj2, hn, hf => by omega
  | fuel + 1, j, k, hj, hk, hj2, hn, hf => by
    have da : IsDouble ((j : ℚ) / 2 ^ k) := by
      have := dyadic_double (j := (j : ℤ)) (k := k) (by rw [abs_of_nonneg (by positivity)]; exact_mod_cast (by omega : j ≤ 2 ^ 53)) hk
      rwa [Int.cast_natCast] at this
    have db : IsDouble (((j : ℚ) + 1) / 2 ^ k) := by
      have := dyadic_double (j := ((j + 1 : ℕ) : ℤ)) (k := k) (by rw [abs_of_nonneg (by positivity)]; exact_mod_cast hj2) hk
      rwa [Int.cast_natCast, Nat.cast_add, Nat.cast_one] at this
    have hab : (j : ℚ) / 2 ^ k ≤ ((j : ℚ) + 1) / 2 ^ k := by gcongr; linarith
    by_cases hs : 2 ^ 53 < 2 * j + 1 ∨ 1074 ≤ k
    · exact stuck_ends H f he n (fuel + 1) _ _ k da db hab (dyadic_stuck hs) (by omega) (by omega)
    · push Not at hs
      have hm := mid_dyadic hs.1 hs.2
      rw [step, hm]
      split_ifs with hc
      · have e1 : (j : ℚ) / 2 ^ k = ((2 * j : ℕ) : ℚ) / 2 ^ (k + 1) := by push_cast; rw [pow_succ]; field_simp
        have e2 : ((j : ℚ) + 1) / 2 ^ k = (((2 * j + 1 : ℕ) : ℚ) + 1) / 2 ^ (k + 1) := by push_cast; rw [pow_succ]; field_simp; ring
        have e3 : ((2 * j + 1 : ℕ) : ℚ) / 2 ^ (k + 1) = (((2 * j : ℕ) : ℚ) + 1) / 2 ^ (k + 1) := by push_cast; rfl
        obtain ⟨l1, h1⟩ := dyadic_ends f he n fuel (2 * j) (k + 1) (by rw [pow_succ]; omega) (by omega) hs.1 (by omega) (by omega)
        obtain ⟨l2, h2⟩ := dyadic_ends f he n fuel (2 * j + 1) (k + 1) (by rw [pow_succ]; omega) (by omega) (by omega) (by omega) (by omega)
        rw [← e1, ← e3] at h1
        rw [← e2] at h2
        rw [h1, h2]
        exact ⟨_, rfl⟩
      · exact ⟨_, rfl⟩

/-! ### how much too small the result can be -/

/-- a point with real coordinates -/
def real (p : Pt ℚ) : Pt ℝ := ⟨p.x, p.y⟩

/-- a chord is computed up to a few roundings -/
theorem chord_err (p q : Pt ℚ) :
    |(chord doubles H q p : ℝ) - dst (real p) (real q)| ≤ dst (real p) (real q) / 2 ^ 51 + 1 / 2 ^ 1072 := by
  have hx : |((roundDouble (q.x - p.x) : ℚ) : ℝ) - (q.x - p.x)| ≤ |(q.x : ℝ) - p.x| / 2 ^ 53 + 1 / 2 ^ 1074 := by
    have := (Rat.cast_le (K := ℝ)).2 (roundDouble_err (q.x - p.x)); push_cast at this; exact this
  have hy : |((roundDouble (q.y - p.y) : ℚ) : ℝ) - (q.y - p.y)| ≤ |(q.y : ℝ) - p.y| / 2 ^ 53 + 1 / 2 ^ 1074 := by
    have := (Rat.cast_le (K := ℝ)).2 (roundDouble_err (q.y - p.y)); push_cast at this; exact this
  have hh := H.err (roundDouble (q.x - p.x)) (roundDouble (q.y - p.y))
  have e : (1 : ℝ) / 2 ^ 1072 = 4 * (1 / 2 ^ 1074) := by
    rw [show 1074 = 1072 + 2 from rfl, pow_add]
    generalize (2 : ℝ) ^ 1072 = z
    rw [← div_div]; ring
  have hη : (0 : ℝ) ≤ 1 / 2 ^ 1074 := by positivity
  rw [e]
  change |((H.hypot (roundDouble (q.x - p.x)) (roundDouble (q.y - p.y)) : ℚ) : ℝ) - _| ≤ _
  generalize (1 : ℝ) / 2 ^ 1074 = η at *
  generalize ((H.hypot (roundDouble (q.x - p.x)) (roundDouble (q.y - p.y)) : ℚ) : ℝ) = h at *
  generalize ((roundDouble (q.x - p.x) : ℚ) : ℝ) = u at *
  generalize ((roundDouble (q.y - p.y) : ℚ) : ℝ) = v at *
  have hd : dst (real p) (real q) = Real.sqrt (((q.x : ℝ) - p.x) ^ 2 + ((q.y : ℝ) - p.y) ^ 2) := by
    simp only [dst, sqDist, real]; congr 1; ring
  rw [hd]
  generalize (q.x : ℝ) - p.x = x at *
  generalize (q.y : ℝ) - p.y = y at *
  have hD : 0 ≤ Real.sqrt (x ^ 2 + y ^ 2) := Real.sqrt_nonneg _
  -- the difference of the roots is at most the root of the difference
  have hroot : Real.sqrt ((u - x) ^ 2 + (v - y) ^ 2) ≤ Real.sqrt (x ^ 2 + y ^ 2) / 2 ^ 53 + 2 * η := by
    rw [Real.sqrt_le_left (by positivity)]
    have h1 : (u - x) ^ 2 ≤ (|x| / 2 ^ 53 + η) ^ 2 := by rw [← sq_abs (u - x)]; exact pow_le_pow_left₀ (abs_nonneg _) hx 2
    have h2 : (v - y) ^ 2 ≤ (|y| / 2 ^ 53 + η) ^ 2 := by rw [← sq_abs (v - y)]; exact pow_le_pow_left₀ (abs_nonneg _) hy 2
    have hs := Real.sq_sqrt (show 0 ≤ x ^ 2 + y ^ 2 by positivity)
    have hxs : |x| ≤ Real.sqrt (x ^ 2 + y ^ 2) := Real.abs_le_sqrt (by nlinarith)
    have hys : |y| ≤ Real.sqrt (x ^ 2 + y ^ 2) := Real.abs_le_sqrt (by nlinarith)
    have hx2 : |x| ^ 2 = x ^ 2 := sq_abs x
    have hy2 : |y| ^ 2 = y ^ 2 := sq_abs y
    generalize Real.sqrt (x ^ 2 + y ^ 2) = D at *
    have g1 := mul_le_mul_of_nonneg_right hxs hη
    have g2 := mul_le_mul_of_nonneg_right hys hη
    have c : (0 : ℝ) ≤ 1 / 2 ^ 53 := by positivity
    have e1 : (|x| / 2 ^ 53 + η) ^ 2 + (|y| / 2 ^ 53 + η) ^ 2 = (1 / 2 ^ 53) ^ 2 * D ^ 2 + 2 * (1 / 2 ^ 53) * (|x| * η + |y| * η) + 2 * η ^ 2 := by
      rw [hs, ← hx2, ← hy2]; ring
    have e2 : (D / 2 ^ 53 + 2 * η) ^ 2 = (1 / 2 ^ 53) ^ 2 * D ^ 2 + 2 * (1 / 2 ^ 53) * (D * η + D * η) + 4 * η ^ 2 := by ring
    have g3 : 2 * (1 / 2 ^ 53) * (|x| * η + |y| * η) ≤ 2 * (1 / 2 ^ 53) * (D * η + D * η) := mul_le_mul_of_nonneg_left (by linarith) (by positivity)
    nlinarith [sq_nonneg η]
  have t1 := LengthAccuracy.norm_triangle u v x y
  have t2 := LengthAccuracy.norm_triangle x y u v
  have t3 : Real.sqrt ((x - u) ^ 2 + (y - v) ^ 2) = Real.sqrt ((u - x) ^ 2 + (v - y) ^ 2) := by congr 1; ring
  rw [t3] at t2
  have hU : 0 ≤ Real.sqrt (u ^ 2 + v ^ 2) := Real.sqrt_nonneg _
  generalize Real.sqrt (u ^ 2 + v ^ 2) = U at *
  generalize Real.sqrt (x ^ 2 + y ^ 2) = D at *
  generalize Real.sqrt ((u - x) ^ 2 + (v - y) ^ 2) = E at *
  rw [abs_le] at hh ⊢
  obtain ⟨a1, a2⟩ := hh
  norm_num1 at *
  constructor <;> linarith

theorem chord_nonneg (p q : Pt ℚ) : 0 ≤ chord doubles H q p := H.nonneg _ _

theorem result_nonneg (f : ℚ → Pt ℚ) (error : ℚ) (n : ℕ) :
    ∀ (fuel : ℕ) (a b : ℚ) (p q : Pt ℚ) (depth : ℕ) (L : ℚ), segmentLength doubles H f error n fuel a b p q depth = .ok L → 0 ≤ L
  | 0, a, b, p, q, depth, L, e => by simp [segmentLength] at e
  | fuel + 1, a, b, p, q, depth, L, e => by
    unfold segmentLength at e
    simp only at e
    split_ifs at e with hc
    · cases e1 : segmentLength doubles H f error n fuel a (doubles.fl (doubles.fl (a + b) / 2)) p (f (doubles.fl (doubles.fl (a + b) / 2))) (depth + 1) with
      | error x => simp [e1] at e
      | ok l1 =>
        cases e2 : segmentLength doubles H f error n fuel (doubles.fl (doubles.fl (a + b) / 2)) b (f (doubles.fl (doubles.fl (a + b) / 2))) q (depth + 1) with
        | error x => simp [e1, e2] at e
        | ok l2 =>
          simp only [e1, e2, Except.ok.injEq] at e
          rw [← e]
          exact roundDouble_nonneg (add_nonneg (result_nonneg f error n fuel _ _ _ _ _ _ e1) (result_nonneg f error n fuel _ _ _ _ _ _ e2))
    · simp only [Except.ok.injEq] at e
      rw [← e]
      exact roundDouble_nonneg (add_nonneg (H.nonneg _ _) (H.nonneg _ _))

/-- the factor lost at each level -/
noncomputable def keep : ℝ := 1 - 1 / 2 ^ 48

theorem keep_pos : 0 < keep := by unfold keep; norm_num
theorem keep_lt : keep < 1 := by unfold keep; norm_num

theorem keep_pow {n : ℕ} (h : n ≤ 1077) : 1 - 1 / 2 ^ 37 ≤ keep ^ n := by
  have h1 := one_add_mul_le_pow (a := -(1 / 2 ^ 48 : ℝ)) (by norm_num) n
  have h2 : (n : ℝ) ≤ 1077 := by exact_mod_cast h
  rw [show keep = 1 + -(1 / 2 ^ 48) by unfold keep; ring]
  refine le_trans ?_ h1
  have := mul_le_mul_of_nonneg_right h2 (show (0 : ℝ) ≤ 1 / 2 ^ 48 by positivity)
  norm_num1 at *
  linarith

theorem round_low {x : ℚ} (h : 0 ≤ x) : (x : ℝ) * (1 - 1 / 2 ^ 53) - 1 / 2 ^ 1072 ≤ (roundDouble x : ℚ) := by
  have := (Rat.cast_le (K := ℝ)).2 (roundDouble_err x)
  push_cast at this
  rw [abs_of_nonneg (show (0 : ℝ) ≤ x by exact_mod_cast h)] at this
  have h2 := (abs_le.1 this).1
  have h3 : (1 : ℝ) / 2 ^ 1074 ≤ 1 / 2 ^ 1072 := by
    apply one_div_le_one_div_of_le (by positivity)
    exact pow_le_pow_right₀ (by norm_num) (by norm_num)
  linarith

theorem round_high {x : ℚ} (h : 0 ≤ x) : ((roundDouble x : ℚ) : ℝ) ≤ (x : ℝ) * (1 + 1 / 2 ^ 53) + 1 / 2 ^ 1072 := by
  have := (Rat.cast_le (K := ℝ)).2 (roundDouble_err x)
  push_cast at this
  rw [abs_of_nonneg (show (0 : ℝ) ≤ x by exact_mod_cast h)] at this
  have h2 := (abs_le.1 this).2
  have h3 : (1 : ℝ) / 2 ^ 1074 ≤ 1 / 2 ^ 1072 := by
    apply one_div_le_one_div_of_le (by positivity)
    exact pow_le_pow_right₀ (by norm_num) (by norm_num)
  linarith

/-- the computed sum of the two halves -/
def halves (f : ℚ → Pt ℚ) (a b : ℚ) : ℚ := chord doubles H (f (mid a b)) (f a) + chord doubles H (f b) (f (mid a b))

theorem halves_nonneg (f : ℚ → Pt ℚ) (a b : ℚ) : 0 ≤ halves H f a b := add_nonneg (H.nonneg _ _) (H.nonneg _ _)

/-- the two halves are not much shorter than the chord -/
theorem halves_chord (f : ℚ → Pt ℚ) (a b : ℚ) :
    (chord doubles H (f b) (f a) : ℝ) * (1 - 2 / 2 ^ 51) - 4 * (1 / 2 ^ 1072) ≤ (halves H f a b : ℚ) := by
  have h1 := abs_le.1 (chord_err H (f a) (f (mid a b)))
  have h2 := abs_le.1 (chord_err H (f (mid a b)) (f b))
  have h3 := abs_le.1 (chord_err H (f a) (f b))
  have ht := dst_triangle (real (f a)) (real (f (mid a b))) (real (f b))
  have n1 : 0 ≤ dst (real (f a)) (real (f b)) := Real.sqrt_nonneg _
  have n2 : (0 : ℝ) ≤ 1 / 2 ^ 1072 := by positivity
  unfold halves
  push_cast
  generalize (1 : ℝ) / 2 ^ 1072 = η at *
  generalize dst (real (f a)) (real (f b)) = D at *
  generalize dst (real (f a)) (real (f (mid a b))) = D1 at *
  generalize dst (real (f (mid a b))) (real (f b)) = D2 at *
  norm_num1 at *
  linarith [h1.1, h2.1, h3.2]

/-- the arithmetic of one inner node -/
theorem inner_bound {η w W S C1 C2 S1 S2 r1 r2 r : ℝ} (hη : 0 ≤ η) (hW : 1 / 2 ≤ W) (hW1 : W ≤ 1) (hw : w = 1 - 1 / 2 ^ 48)
    (hS : S = C1 + C2) (hbig : 2 ^ 60 * η ≤ S) (h1 : C1 * (1 - 2 / 2 ^ 51) - 4 * η ≤ S1) (h2 : C2 * (1 - 2 / 2 ^ 51) - 4 * η ≤ S2)
    (hr1 : W * S1 - 16 * η ≤ r1) (hr2 : W * S2 - 16 * η ≤ r2) (hr : (r1 + r2) * (1 - 1 / 2 ^ 53) - η ≤ r) :
    W * w * S - 16 * η ≤ r := by
  have g1 := mul_le_mul_of_nonneg_left h1 (show 0 ≤ W by linarith)
  have g2 := mul_le_mul_of_nonneg_left h2 (show 0 ≤ W by linarith)
  have g3 : W * (8 * η) ≤ 8 * η := by nlinarith
  have a1 : W * S * (1 - 2 / 2 ^ 51) - 40 * η ≤ r1 + r2 := by rw [hS]; linarith
  have a2 : (W * S * (1 - 2 / 2 ^ 51) - 40 * η) * (1 - 1 / 2 ^ 53) ≤ (r1 + r2) * (1 - 1 / 2 ^ 53) :=
    mul_le_mul_of_nonneg_right a1 (by norm_num)
  have a3 : 2 ^ 59 * η ≤ W * S := by nlinarith
  rw [hw]
  generalize hX : W * S = X at *
  rw [show W * (1 - 1 / 2 ^ 48) * S = X * (1 - 1 / 2 ^ 48) by rw [← hX]; ring]
  norm_num1 at *
  linarith

theorem step_halves (f : ℚ → Pt ℚ) (error : ℚ) (n fuel : ℕ) (a b : ℚ) (depth : ℕ) :
    segmentLength doubles H f error n (fuel + 1) a b (f a) (f b) depth =
      if roundDouble (roundDouble (halves H f a b) - chord doubles H (f b) (f a)) > error ∨ depth < n then
        match segmentLength doubles H f error n fuel a (mid a b) (f a) (f (mid a b)) (depth + 1) with
        | .error e => .error e
        | .ok l1 =>
          match segmentLength doubles H f error n fuel (mid a b) b (f (mid a b)) (f b) (depth + 1) with
          | .error e => .error e
          | .ok l2 => .ok (roundDouble (l1 + l2))
      else .ok (roundDouble (halves H f a b)) := rfl

/-- where another step gains something, the part is not tiny -/
theorem gain_big (f : ℚ → Pt ℚ) (a b : ℚ) {error : ℚ} (he : 1 / 2 ^ 1000 ≤ error)
    (h : roundDouble (roundDouble (halves H f a b) - chord doubles H (f b) (f a)) > error) :
    (2 : ℝ) ^ 60 * (1 / 2 ^ 1072) ≤ (halves H f a b : ℚ) := by
  have he0 : 0 < error := lt_of_lt_of_le (by positivity) he
  have hx : 0 ≤ roundDouble (halves H f a b) - chord doubles H (f b) (f a) := by
    by_contra hc
    have := roundDouble_mono (le_of_lt (not_le.1 hc))
    rw [show roundDouble 0 = 0 from fl_zero doubles] at this
    linarith
  have h1 := round_high hx
  have h2 := round_high (halves_nonneg H f a b)
  have h3 : (error : ℝ) < (roundDouble (roundDouble (halves H f a b) - chord doubles H (f b) (f a)) : ℚ) := by exact_mod_cast h
  have h4 : (1 : ℝ) / 2 ^ 1000 ≤ error := by
    have := (Rat.cast_le (K := ℝ)).2 he
    push_cast at this
    exact this
  have h5 : (1 : ℝ) / 2 ^ 1000 = 2 ^ 72 * (1 / 2 ^ 1072) := by
    rw [show 1072 = 1000 + 72 from rfl, pow_add]
    generalize (2 : ℝ) ^ 1000 = z
    rw [← div_div]; ring
  have h6 : (0 : ℝ) ≤ (chord doubles H (f b) (f a) : ℚ) := by exact_mod_cast H.nonneg _ _
  have h7 : (0 : ℝ) ≤ (halves H f a b : ℚ) := by exact_mod_cast halves_nonneg H f a b
  have h8 : (0 : ℝ) < 1 / 2 ^ 1072 := by positivity
  rw [h5] at h4
  push_cast at h1
  generalize (1 : ℝ) / 2 ^ 1072 = η at *
  generalize ((halves H f a b : ℚ) : ℝ) = S at *
  norm_num1 at *
  linarith

theorem node_low (f : ℚ → Pt ℚ) {error : ℚ} (he : 1 / 2 ^ 1000 ≤ error) (n : ℕ) :
    ∀ (fuel j k : ℕ) (L : ℚ), j < 2 ^ k → k ≤ 1074 → j + 1 ≤ 2 ^ 53 → n ≤ k →
      segmentLength doubles H f error n fuel ((j : ℚ) / 2 ^ k) (((j : ℚ) + 1) / 2 ^ k) (f ((j : ℚ) / 2 ^ k)) (f (((j : ℚ) + 1) / 2 ^ k)) k = .ok L →
      keep ^ (1076 - k) * (halves H f ((j : ℚ) / 2 ^ k) (((j : ℚ) + 1) / 2 ^ k) : ℚ) - 16 * (1 / 2 ^ 1072) ≤ L
  | 0, j, k, L, hj, hk, hj2, hn, e => by simp [segmentLength] at e
  | fuel + 1, j, k, L, hj, hk, hj2, hn, e => by
    have hη : (0 : ℝ) ≤ 1 / 2 ^ 1072 := by positivity
    have hS0 : (0 : ℝ) ≤ (halves H f ((j : ℚ) / 2 ^ k) (((j : ℚ) + 1) / 2 ^ k) : ℚ) := by exact_mod_cast halves_nonneg H f _ _
    have da : IsDouble ((j : ℚ) / 2 ^ k) := by
      have := dyadic_double (j := (j : ℤ)) (k := k) (by rw [abs_of_nonneg (by positivity)]; exact_mod_cast (by omega : j ≤ 2 ^ 53)) hk
      rwa [Int.cast_natCast] at this
    have db : IsDouble (((j : ℚ) + 1) / 2 ^ k) := by
      have := dyadic_double (j := ((j + 1 : ℕ) : ℤ)) (k := k) (by rw [abs_of_nonneg (by positivity)]; exact_mod_cast hj2) hk
      rwa [Int.cast_natCast, Nat.cast_add, Nat.cast_one] at this
    have hab : (j : ℚ) / 2 ^ k ≤ ((j : ℚ) + 1) / 2 ^ k := by gcongr; linarith
    have hkeep1 : keep ^ (1076 - k) ≤ keep := by
      calc keep ^ (1076 - k) ≤ keep ^ 1 := pow_le_pow_of_le_one keep_pos.le keep_lt.le (by omega)
        _ = keep := pow_one _
    -- a leaf
    have leaf : L = roundDouble (halves H f ((j : ℚ) / 2 ^ k) (((j : ℚ) + 1) / 2 ^ k)) →
        keep ^ (1076 - k) * (halves H f ((j : ℚ) / 2 ^ k) (((j : ℚ) + 1) / 2 ^ k) : ℚ) - 16 * (1 / 2 ^ 1072) ≤ L := by
      rintro rfl
      have h1 := round_low (halves_nonneg H f ((j : ℚ) / 2 ^ k) (((j : ℚ) + 1) / 2 ^ k))
      have h2 := mul_le_mul_of_nonneg_right hkeep1 hS0
      have h3 := mul_le_mul_of_nonneg_right (show keep ≤ 1 - 1 / 2 ^ 53 by unfold keep; norm_num) hS0
      linarith
    rw [step_halves] at e
    by_cases hs : 2 ^ 53 < 2 * j + 1 ∨ 1074 ≤ k
    · have hm := stuck_mid da db hab (dyadic_stuck hs)
      have hg := stuck_gain H (f := f) hm
      change roundDouble (halves H f _ _) = _ at hg
      rw [if_neg] at e
      · exact leaf (by simpa using e.symm)
      · rw [hg, sub_self, show roundDouble 0 = 0 from fl_zero doubles]
        push Not
        exact ⟨le_trans (by positivity) he, hn⟩
    · push Not at hs
      split_ifs at e with hc
      · have hm := mid_dyadic hs.1 hs.2
        rw [hm] at e
        have hc' : roundDouble (roundDouble (halves H f ((j : ℚ) / 2 ^ k) (((j : ℚ) + 1) / 2 ^ k)) -
            chord doubles H (f (((j : ℚ) + 1) / 2 ^ k)) (f ((j : ℚ) / 2 ^ k))) > error := hc.resolve_right (by omega)
        have e1 : (j : ℚ) / 2 ^ k = ((2 * j : ℕ) : ℚ) / 2 ^ (k + 1) := by push_cast; rw [pow_succ]; field_simp
        have e2 : ((j : ℚ) + 1) / 2 ^ k = (((2 * j + 1 : ℕ) : ℚ) + 1) / 2 ^ (k + 1) := by push_cast; rw [pow_succ]; field_simp; ring
        have e3 : ((2 * j + 1 : ℕ) : ℚ) / 2 ^ (k + 1) = (((2 * j : ℕ) : ℚ) + 1) / 2 ^ (k + 1) := by push_cast; rfl
        have ih1 := node_low f he n fuel (2 * j) (k + 1)
        have ih2 := node_low f he n fuel (2 * j + 1) (k + 1)
        rw [← e1, ← e3] at ih1
        rw [← e2] at ih2
        cases g1 : segmentLength doubles H f error n fuel ((j : ℚ) / 2 ^ k) (((2 * j + 1 : ℕ) : ℚ) / 2 ^ (k + 1)) (f ((j : ℚ) / 2 ^ k))
            (f (((2 * j + 1 : ℕ) : ℚ) / 2 ^ (k + 1))) (k + 1) with
        | error x => simp only [g1, reduceCtorEq] at e
        | ok l1 =>
          cases g2 : segmentLength doubles H f error n fuel (((2 * j + 1 : ℕ) : ℚ) / 2 ^ (k + 1)) (((j : ℚ) + 1) / 2 ^ k)
              (f (((2 * j + 1 : ℕ) : ℚ) / 2 ^ (k + 1))) (f (((j : ℚ) + 1) / 2 ^ k)) (k + 1) with
          | error x => simp only [g1, g2, reduceCtorEq] at e
          | ok l2 =>
            simp only [g1, g2, Except.ok.injEq] at e
            have r1 := ih1 l1 (by rw [pow_succ]; omega) (by omega) (by omega) (by omega) g1
            have r2 := ih2 l2 (by rw [pow_succ]; omega) (by omega) (by omega) (by omega) g2
            have hl := round_low (add_nonneg (result_nonneg H f error n _ _ _ _ _ _ _ g1) (result_nonneg H f error n _ _ _ _ _ _ _ g2))
            rw [e] at hl
            push_cast at hl
            have c1 := halves_chord H f ((j : ℚ) / 2 ^ k) (((2 * j + 1 : ℕ) : ℚ) / 2 ^ (k + 1))
            have c2 := halves_chord H f (((2 * j + 1 : ℕ) : ℚ) / 2 ^ (k + 1)) (((j : ℚ) + 1) / 2 ^ k)
            have hS : ((halves H f ((j : ℚ) / 2 ^ k) (((j : ℚ) + 1) / 2 ^ k) : ℚ) : ℝ) =
                (chord doubles H (f (((2 * j + 1 : ℕ) : ℚ) / 2 ^ (k + 1))) (f ((j : ℚ) / 2 ^ k)) : ℝ) +
                (chord doubles H (f (((j : ℚ) + 1) / 2 ^ k)) (f (((2 * j + 1 : ℕ) : ℚ) / 2 ^ (k + 1))) : ℝ) := by
              unfold halves; rw [hm]; push_cast; rfl
            have hbig : (2 : ℝ) ^ 60 * (1 / 2 ^ 1072) ≤ (halves H f ((j : ℚ) / 2 ^ k) (((j : ℚ) + 1) / 2 ^ k) : ℚ) :=
              gain_big H f _ _ he hc'
            have := inner_bound hη (W := keep ^ (1076 - (k + 1))) (le_trans (by norm_num) (keep_pow (by omega)))
              (pow_le_one₀ keep_pos.le keep_lt.le) (w := keep) rfl hS hbig c1 c2 r1 r2 hl
            rw [← pow_succ, show 1076 - (k + 1) + 1 = 1076 - k by omega] at this
            exact this
      · exact leaf (by simpa using e.symm)

open Classical in
/-- the points computed, as a function of a real parameter -/
noncomputable def sampled (f : ℚ → Pt ℚ) (t : ℝ) : Pt ℝ := if h : ∃ q : ℚ, (q : ℝ) = t then real (f h.choose) else ⟨0, 0⟩

theorem sampled_rat (f : ℚ → Pt ℚ) (q : ℚ) : sampled f q = real (f q) := by
  have h : ∃ r : ℚ, (r : ℝ) = q := ⟨q, rfl⟩
  unfold sampled
  rw [dif_pos h]
  have : h.choose = q := by exact_mod_cast h.choose_spec
  rw [this]

theorem polygon_one (g : ℝ → Pt ℝ) (a b : ℝ) : polygonLength g a b 1 = dst (g a) (g b) := by
  simp only [polygonLength, Finset.sum_range_one, dst]
  congr 3 <;> · push_cast; ring

theorem polygon_nonneg (g : ℝ → Pt ℝ) (a b : ℝ) (n : ℕ) : 0 ≤ polygonLength g a b n := Finset.sum_nonneg fun _ _ => Real.sqrt_nonneg _

theorem mid_real (j k : ℕ) : ((((j : ℚ) / 2 ^ k : ℚ) : ℝ) + ((((j : ℚ) + 1) / 2 ^ k : ℚ) : ℝ)) / 2 = ((((2 * j + 1 : ℕ) : ℚ) / 2 ^ (k + 1) : ℚ) : ℝ) := by
  push_cast
  rw [pow_succ]
  field_simp
  ring

theorem top_low (f : ℚ → Pt ℚ) {error : ℚ} (he : 1 / 2 ^ 1000 ≤ error) {n : ℕ} (hn : n ≤ 50) :
    ∀ (i fuel j k : ℕ) (L : ℚ), j < 2 ^ k → k + i = n →
      segmentLength doubles H f error n fuel ((j : ℚ) / 2 ^ k) (((j : ℚ) + 1) / 2 ^ k) (f ((j : ℚ) / 2 ^ k)) (f (((j : ℚ) + 1) / 2 ^ k)) k = .ok L →
      keep ^ (1077 - k) * polygonLength (sampled f) (((j : ℚ) / 2 ^ k : ℚ) : ℝ) ((((j : ℚ) + 1) / 2 ^ k : ℚ) : ℝ) (2 ^ (i + 1)) -
        (2 ^ i * 64 - 1) * (1 / 2 ^ 1072) ≤ L
  | i, 0, j, k, L, hj, hk, e => by simp [segmentLength] at e
  | 0, fuel + 1, j, k, L, hj, hk, e => by
    have hη : (0 : ℝ) ≤ 1 / 2 ^ 1072 := by positivity
    have hjk : (2 : ℕ) ^ k ≤ 2 ^ 50 := Nat.pow_le_pow_right (by norm_num) (by omega)
    have h := node_low H f he n (fuel + 1) j k L hj (by omega) (by omega) (by omega) e
    have hm := mid_dyadic (j := j) (k := k) (by omega) (by omega)
    have hY : polygonLength (sampled f) (((j : ℚ) / 2 ^ k : ℚ) : ℝ) ((((j : ℚ) + 1) / 2 ^ k : ℚ) : ℝ) (2 ^ (0 + 1)) =
        dst (real (f ((j : ℚ) / 2 ^ k))) (real (f (((2 * j + 1 : ℕ) : ℚ) / 2 ^ (k + 1)))) +
        dst (real (f (((2 * j + 1 : ℕ) : ℚ) / 2 ^ (k + 1)))) (real (f (((j : ℚ) + 1) / 2 ^ k))) := by
      rw [zero_add, pow_one, show 2 = 2 * 1 from rfl, polygon_halves _ _ _ _ (by norm_num), polygon_one, polygon_one]
      rw [show 2 * 1 = 2 from rfl, mid_real, sampled_rat, sampled_rat, sampled_rat]
    have hS : (dst (real (f ((j : ℚ) / 2 ^ k))) (real (f (((2 * j + 1 : ℕ) : ℚ) / 2 ^ (k + 1)))) +
        dst (real (f (((2 * j + 1 : ℕ) : ℚ) / 2 ^ (k + 1)))) (real (f (((j : ℚ) + 1) / 2 ^ k)))) * (1 - 1 / 2 ^ 51) - 2 * (1 / 2 ^ 1072) ≤
        (halves H f ((j : ℚ) / 2 ^ k) (((j : ℚ) + 1) / 2 ^ k) : ℚ) := by
      have h1 := abs_le.1 (chord_err H (f ((j : ℚ) / 2 ^ k)) (f (((2 * j + 1 : ℕ) : ℚ) / 2 ^ (k + 1))))
      have h2 := abs_le.1 (chord_err H (f (((2 * j + 1 : ℕ) : ℚ) / 2 ^ (k + 1))) (f (((j : ℚ) + 1) / 2 ^ k)))
      unfold halves
      rw [hm, Rat.cast_add]
      linarith [h1.1, h2.1]
    rw [← hY] at hS
    have hY0 := polygon_nonneg (sampled f) (((j : ℚ) / 2 ^ k : ℚ) : ℝ) ((((j : ℚ) + 1) / 2 ^ k : ℚ) : ℝ) (2 ^ (0 + 1))
    rw [show 1077 - k = 1076 - k + 1 by omega, pow_succ]
    have hK0 : 0 < keep ^ (1076 - k) := pow_pos keep_pos _
    have hK1 : keep ^ (1076 - k) ≤ 1 := pow_le_one₀ keep_pos.le keep_lt.le
    have g1 := mul_le_mul_of_nonneg_left hS hK0.le
    have g2 : keep ≤ 1 - 1 / 2 ^ 51 := by unfold keep; norm_num
    have g3 := mul_le_mul_of_nonneg_left (mul_le_mul_of_nonneg_left g2 hY0) hK0.le
    have g4 := mul_le_mul_of_nonneg_right hK1 hη
    generalize (1 : ℝ) / 2 ^ 1072 = η at *
    rw [pow_zero]
    nlinarith
  | i + 1, fuel + 1, j, k, L, hj, hk, e => by
    have hη : (0 : ℝ) ≤ 1 / 2 ^ 1072 := by positivity
    have hjk : (2 : ℕ) ^ k ≤ 2 ^ 50 := Nat.pow_le_pow_right (by norm_num) (by omega)
    have hm := mid_dyadic (j := j) (k := k) (by omega) (by omega)
    rw [step_halves, if_pos (Or.inr (by omega)), hm] at e
    have e1 : (j : ℚ) / 2 ^ k = ((2 * j : ℕ) : ℚ) / 2 ^ (k + 1) := by push_cast; rw [pow_succ]; field_simp
    have e2 : ((j : ℚ) + 1) / 2 ^ k = (((2 * j + 1 : ℕ) : ℚ) + 1) / 2 ^ (k + 1) := by push_cast; rw [pow_succ]; field_simp; ring
    have e3 : ((2 * j + 1 : ℕ) : ℚ) / 2 ^ (k + 1) = (((2 * j : ℕ) : ℚ) + 1) / 2 ^ (k + 1) := by push_cast; rfl
    have ih1 := top_low f he hn i fuel (2 * j) (k + 1)
    have ih2 := top_low f he hn i fuel (2 * j + 1) (k + 1)
    rw [← e1, ← e3] at ih1
    rw [← e2] at ih2
    cases g1 : segmentLength doubles H f error n fuel ((j : ℚ) / 2 ^ k) (((2 * j + 1 : ℕ) : ℚ) / 2 ^ (k + 1)) (f ((j : ℚ) / 2 ^ k))
        (f (((2 * j + 1 : ℕ) : ℚ) / 2 ^ (k + 1))) (k + 1) with
    | error x => simp only [g1, reduceCtorEq] at e
    | ok l1 =>
      cases g2 : segmentLength doubles H f error n fuel (((2 * j + 1 : ℕ) : ℚ) / 2 ^ (k + 1)) (((j : ℚ) + 1) / 2 ^ k)
          (f (((2 * j + 1 : ℕ) : ℚ) / 2 ^ (k + 1))) (f (((j : ℚ) + 1) / 2 ^ k)) (k + 1) with
      | error x => simp only [g1, g2, reduceCtorEq] at e
      | ok l2 =>
        simp only [g1, g2, Except.ok.injEq] at e
        have r1 := ih1 l1 (by rw [pow_succ]; omega) (by omega) g1
        have r2 := ih2 l2 (by rw [pow_succ]; omega) (by omega) g2
        have hl := round_low (add_nonneg (result_nonneg H f error n _ _ _ _ _ _ _ g1) (result_nonneg H f error n _ _ _ _ _ _ _ g2))
        rw [e] at hl
        push_cast at hl
        rw [show 2 ^ (i + 1 + 1) = 2 * 2 ^ (i + 1) by rw [pow_succ]; ring, polygon_halves _ _ _ _ (by positivity), mid_real]
        have y1 := polygon_nonneg (sampled f) (((j : ℚ) / 2 ^ k : ℚ) : ℝ) ((((2 * j + 1 : ℕ) : ℚ) / 2 ^ (k + 1) : ℚ) : ℝ) (2 ^ (i + 1))
        have y2 := polygon_nonneg (sampled f) ((((2 * j + 1 : ℕ) : ℚ) / 2 ^ (k + 1) : ℚ) : ℝ) ((((j : ℚ) + 1) / 2 ^ k : ℚ) : ℝ) (2 ^ (i + 1))
        generalize polygonLength (sampled f) (((j : ℚ) / 2 ^ k : ℚ) : ℝ) ((((2 * j + 1 : ℕ) : ℚ) / 2 ^ (k + 1) : ℚ) : ℝ) (2 ^ (i + 1)) = Y1 at *
        generalize polygonLength (sampled f) ((((2 * j + 1 : ℕ) : ℚ) / 2 ^ (k + 1) : ℚ) : ℝ) ((((j : ℚ) + 1) / 2 ^ k : ℚ) : ℝ) (2 ^ (i + 1)) = Y2 at *
        rw [show 1077 - k = 1077 - (k + 1) + 1 by omega, pow_succ keep, pow_succ (2 : ℝ) i]
        have hK0 : 0 < keep ^ (1077 - (k + 1)) := pow_pos keep_pos _
        have g2 : keep ≤ 1 - 1 / 2 ^ 53 := by unfold keep; norm_num
        have g3 := mul_le_mul_of_nonneg_left (mul_le_mul_of_nonneg_left g2 (add_nonneg y1 y2)) hK0.le
        have p1 : (1 : ℝ) ≤ 2 ^ i := one_le_pow₀ (by norm_num)
        generalize keep ^ (1077 - (k + 1)) = W at *
        generalize (2 : ℝ) ^ i = P at *
        generalize (1 : ℝ) / 2 ^ 1072 = η at *
        have g5 : W * (Y1 + Y2) - 2 * ((P * 64 - 1) * η) ≤ (l1 : ℝ) + l2 := by linarith
        have g6 := mul_le_mul_of_nonneg_right g5 (show (0 : ℝ) ≤ 1 - 1 / 2 ^ 53 by norm_num)
        have g7 : 0 ≤ (P * 64 - 1) * η := mul_nonneg (by linarith) hη
        have g8 : (P * 2 * 64 - 1) * η = 2 * ((P * 64 - 1) * η) + η := by ring
        rw [g8]
        generalize (P * 64 - 1) * η = Q at *
        nlinarith

/-- hypotenuses as assumed exist -/
theorem hypot_exists : Nonempty FloatHypot := by
  have key : ∀ x y : ℚ, ∃ r : ℚ, 0 ≤ r ∧ roundDouble r = r ∧ (x = 0 → y = 0 → r = 0) ∧
      |(r : ℝ) - Real.sqrt ((x : ℝ) ^ 2 + (y : ℝ) ^ 2)| ≤ Real.sqrt ((x : ℝ) ^ 2 + (y : ℝ) ^ 2) / 2 ^ 52 + 1 / 2 ^ 1074 := by
    intro x y
    have hη : (0 : ℝ) ≤ 1 / 2 ^ 1074 := by positivity
    rcases (Real.sqrt_nonneg ((x : ℝ) ^ 2 + (y : ℝ) ^ 2)).eq_or_lt with h | h
    · refine ⟨0, le_rfl, fl_zero doubles, fun _ _ => rfl, ?_⟩
      rw [← h]
      simp only [Rat.cast_zero, sub_self, abs_zero, zero_div, zero_add]
      exact hη
    · obtain ⟨q, q1, q2⟩ := exists_rat_btwn (show Real.sqrt ((x : ℝ) ^ 2 + (y : ℝ) ^ 2) < Real.sqrt ((x : ℝ) ^ 2 + (y : ℝ) ^ 2) * (1 + 1 / 2 ^ 60) by nlinarith)
      have hq : (0 : ℝ) < q := h.trans q1
      refine ⟨roundDouble q, roundDouble_nonneg (by exact_mod_cast hq.le), roundDouble_double (roundDouble_isDouble q), ?_, ?_⟩
      · rintro rfl rfl
        norm_num at h
      · have e := (Rat.cast_le (K := ℝ)).2 (roundDouble_err q)
        push_cast at e
        rw [abs_of_pos hq] at e
        generalize Real.sqrt ((x : ℝ) ^ 2 + (y : ℝ) ^ 2) = D at *
        generalize (1 : ℝ) / 2 ^ 1074 = η at *
        rw [abs_le] at e ⊢
        obtain ⟨e1, e2⟩ := e
        norm_num1 at *
        constructor <;> linarith
  choose r h0 h1 h2 h3 using key
  exact ⟨⟨r, h0, h1, h2 0 0 rfl rfl, h3⟩⟩

theorem dst_small {p q : Pt ℝ} {e : ℝ} (hx : |p.x - q.x| ≤ e) (hy : |p.y - q.y| ≤ e) : dst p q ≤ 2 * e := by
  have he : 0 ≤ e := (abs_nonneg _).trans hx
  unfold dst sqDist
  rw [Real.sqrt_le_left (by positivity)]
  have h1 : (p.x - q.x) ^ 2 ≤ e ^ 2 := sq_le_sq' (abs_le.1 hx).1 (abs_le.1 hx).2
  have h2 : (p.y - q.y) ^ 2 ≤ e ^ 2 := sq_le_sq' (abs_le.1 hy).1 (abs_le.1 hy).2
  nlinarith [sq_nonneg e]

end FloatBisect

open FloatBisect

/-- C159: with floats, the bisection ends after at most 1075 nested calls, or one more than min_depth if that is more: whatever the curve,
and whatever `error` is, even 0. -/
theorem C159_ends (H : FloatHypot) (f : ℚ → Pt ℚ) {error : ℚ} (he : 0 ≤ error) (minDepth fuel : ℕ) (h1 : 1075 ≤ fuel) (h2 : minDepth + 1 ≤ fuel) :
    ∃ L, lineLength doubles H f fuel 0 1 error minDepth = .ok L := by
  have := dyadic_ends H f he minDepth fuel 0 0 (by norm_num) (by norm_num) (by norm_num) (by omega) (by omega)
  simpa [lineLength] using this

/-- C159: `error` = 1e-12, min_depth = 5 -/
example (H : FloatHypot) (f : ℚ → Pt ℚ) : ∃ L, lineLength doubles H f 1075 0 1 (1 / 10 ^ 12) 5 = .ok L :=
  C159_ends H f (by norm_num) 5 1075 le_rfl (by norm_num)

/-- there are such square roots -/
example : Nonempty FloatHypot := hypot_exists

/-- C159: the result is not smaller than the polygon through 2^(min_depth + 1) + 1 points computed at equal steps of the parameter, but for
rounding: for each curve, whatever points its `point` computes. -/
theorem C159_polygon (H : FloatHypot) (f : ℚ → Pt ℚ) {error : ℚ} (he : 1 / 2 ^ 1000 ≤ error) {minDepth : ℕ} (hm : minDepth ≤ 50) {fuel : ℕ}
    {L : ℚ} (hL : lineLength doubles H f fuel 0 1 error minDepth = .ok L) :
    (1 - 1 / 2 ^ 37) * (∑ i ∈ Finset.range (2 ^ (minDepth + 1)),
      Real.sqrt (((f (i / 2 ^ (minDepth + 1))).x - (f ((i + 1) / 2 ^ (minDepth + 1))).x : ℝ) ^ 2 +
        ((f (i / 2 ^ (minDepth + 1))).y - (f ((i + 1) / 2 ^ (minDepth + 1))).y : ℝ) ^ 2)) - 1 / 2 ^ 1000 ≤ L := by
  have h := top_low H f he hm minDepth fuel 0 0 L (by norm_num) (by omega) (by simpa [lineLength] using hL)
  have e : polygonLength (sampled f) ((((0 : ℕ) : ℚ) / 2 ^ 0 : ℚ) : ℝ) (((((0 : ℕ) : ℚ) + 1) / 2 ^ 0 : ℚ) : ℝ) (2 ^ (minDepth + 1)) =
      ∑ i ∈ Finset.range (2 ^ (minDepth + 1)),
      Real.sqrt (((f (i / 2 ^ (minDepth + 1))).x - (f ((i + 1) / 2 ^ (minDepth + 1))).x : ℝ) ^ 2 +
        ((f (i / 2 ^ (minDepth + 1))).y - (f ((i + 1) / 2 ^ (minDepth + 1))).y : ℝ) ^ 2) := by
    unfold polygonLength
    refine Finset.sum_congr rfl fun i _ => ?_
    have a1 : ((((0 : ℕ) : ℚ) / 2 ^ 0 : ℚ) : ℝ) + i * (((((((0 : ℕ) : ℚ) + 1) / 2 ^ 0 : ℚ) : ℝ) - ((((0 : ℕ) : ℚ) / 2 ^ 0 : ℚ) : ℝ)) / ((2 ^ (minDepth + 1) : ℕ) : ℝ)) =
        (((i : ℚ) / 2 ^ (minDepth + 1) : ℚ) : ℝ) := by push_cast; ring
    have a2 : ((((0 : ℕ) : ℚ) / 2 ^ 0 : ℚ) : ℝ) + ((i : ℝ) + 1) * (((((((0 : ℕ) : ℚ) + 1) / 2 ^ 0 : ℚ) : ℝ) - ((((0 : ℕ) : ℚ) / 2 ^ 0 : ℚ) : ℝ)) / ((2 ^ (minDepth + 1) : ℕ) : ℝ)) =
        ((((i : ℚ) + 1) / 2 ^ (minDepth + 1) : ℚ) : ℝ) := by push_cast; ring
    rw [a1, a2, sampled_rat, sampled_rat]
    rfl
  rw [e] at h
  have hY : 0 ≤ ∑ i ∈ Finset.range (2 ^ (minDepth + 1)),
      Real.sqrt (((f (i / 2 ^ (minDepth + 1))).x - (f ((i + 1) / 2 ^ (minDepth + 1))).x : ℝ) ^ 2 +
        ((f (i / 2 ^ (minDepth + 1))).y - (f ((i + 1) / 2 ^ (minDepth + 1))).y : ℝ) ^ 2) := Finset.sum_nonneg fun _ _ => Real.sqrt_nonneg _
  have h1 := mul_le_mul_of_nonneg_right (keep_pow (n := 1077 - 0) (by norm_num)) hY
  have h2 : ((2 : ℝ) ^ minDepth * 64 - 1) * (1 / 2 ^ 1072) ≤ 1 / 2 ^ 1000 := by
    have h3 : (2 : ℝ) ^ minDepth ≤ 2 ^ 50 := pow_le_pow_right₀ (by norm_num) hm
    have h5 : (1 : ℝ) / 2 ^ 1000 = 2 ^ 72 * (1 / 2 ^ 1072) := by
      rw [show 1072 = 1000 + 72 from rfl, pow_add]
      generalize (2 : ℝ) ^ 1000 = z
      rw [← div_div]; ring
    rw [h5]
    apply mul_le_mul_of_nonneg_right _ (by positivity)
    norm_num1 at *
    linarith
  linarith

/-- C159: `length()` of a cubic curve, computed with floats and without scipy, is too small by at most 3·D / 2^min_depth, as in exact
arithmetic (C158), and the rounding: 2^-37 of the length, and 2^(min_depth + 3) times the error of a point. `B` bounds the coordinates. -/
theorem C159_cubic (P : FloatPow) (H : FloatHypot) {p c d q : Pt ℚ} {B : ℚ} (hp : SizeAtMost B p) (hc : SizeAtMost B c) (hd : SizeAtMost B d)
    (hq : SizeAtMost B q) {D : ℝ} (h1 : Real.sqrt (((p.x : ℝ) - 2 * c.x + d.x) ^ 2 + ((p.y : ℝ) - 2 * c.y + d.y) ^ 2) ≤ D)
    (h2 : Real.sqrt (((c.x : ℝ) - 2 * d.x + q.x) ^ 2 + ((c.y : ℝ) - 2 * d.y + q.y) ^ 2) ≤ D)
    {error : ℚ} (he : 1 / 2 ^ 1000 ≤ error) {minDepth : ℕ} (hm : minDepth ≤ 50) {fuel : ℕ} {L : ℚ}
    (hL : lineLength doubles H (fun t => ⟨Flt.cubicAt doubles P p.x c.x d.x q.x t, Flt.cubicAt doubles P p.y c.y d.y q.y t⟩) fuel 0 1 error minDepth
      = .ok L) :
    (1 - 1 / 2 ^ 37) * (arcLength (bezier3 (⟨p.x, p.y⟩ : Pt ℝ) ⟨c.x, c.y⟩ ⟨d.x, d.y⟩ ⟨q.x, q.y⟩) - 3 * D / 2 ^ minDepth -
      2 ^ (minDepth + 3) * (B / 2 ^ 47 + 1 / 2 ^ 1070)) - 1 / 2 ^ 1000 ≤ L := by
  have h := C159_polygon H _ he hm hL
  have hD : 0 ≤ D := (Real.sqrt_nonneg _).trans h1
  set g := bezier3 (⟨p.x, p.y⟩ : Pt ℝ) ⟨c.x, c.y⟩ ⟨d.x, d.y⟩ ⟨q.x, q.y⟩ with hg
  have hpoly := LengthAccuracy.polygon_any (smooth_bezier3 (⟨p.x, p.y⟩ : Pt ℝ) ⟨c.x, c.y⟩ ⟨d.x, d.y⟩ ⟨q.x, q.y⟩)
    (fun a b ha hab hb1 => LengthAccuracy.defect_any (by positivity) (LengthAccuracy.bent_cubic (⟨p.x, p.y⟩ : Pt ℝ) ⟨c.x, c.y⟩ ⟨d.x, d.y⟩ ⟨q.x, q.y⟩ h1 h2) ha hab hb1)
    (minDepth + 1) 0 1 le_rfl zero_le_one le_rfl
  rw [← hg] at hpoly
  have e6 : 6 * D * (1 - 0) ^ 2 / 2 ^ (minDepth + 1) = 3 * D / 2 ^ minDepth := by rw [pow_succ]; field_simp; ring
  rw [e6] at hpoly
  -- the points computed are near the curve
  have near : ∀ t : ℚ, 0 ≤ t → t ≤ 1 →
      dst (real ⟨Flt.cubicAt doubles P p.x c.x d.x q.x t, Flt.cubicAt doubles P p.y c.y d.y q.y t⟩) (g t) ≤ 2 * ((B / 2 ^ 47 + 1 / 2 ^ 1070 : ℚ) : ℝ) := by
    intro t t0 t1
    have hx := flt_cubic_err doubles P hp.1 hc.1 hd.1 hq.1 t0 t1
    have hy := flt_cubic_err doubles P hp.2 hc.2 hd.2 hq.2 t0 t1
    have hgt := congrFun (LengthAccuracy.cubic_line (⟨p.x, p.y⟩ : Pt ℝ) ⟨c.x, c.y⟩ ⟨d.x, d.y⟩ ⟨q.x, q.y⟩) (t : ℝ)
    rw [hg, ← hgt]
    exact dst_small (by rw [abs_sub_comm]; exact hx) (by rw [abs_sub_comm]; exact hy)
  have hsum : polygonLength g 0 1 (2 ^ (minDepth + 1)) - 2 ^ (minDepth + 3) * ((B / 2 ^ 47 + 1 / 2 ^ 1070 : ℚ) : ℝ) ≤
      ∑ i ∈ Finset.range (2 ^ (minDepth + 1)),
      dst (real ⟨Flt.cubicAt doubles P p.x c.x d.x q.x (i / 2 ^ (minDepth + 1)), Flt.cubicAt doubles P p.y c.y d.y q.y (i / 2 ^ (minDepth + 1))⟩)
        (real ⟨Flt.cubicAt doubles P p.x c.x d.x q.x ((i + 1) / 2 ^ (minDepth + 1)), Flt.cubicAt doubles P p.y c.y d.y q.y ((i + 1) / 2 ^ (minDepth + 1))⟩) := by
    have e : (2 : ℝ) ^ (minDepth + 3) * ((B / 2 ^ 47 + 1 / 2 ^ 1070 : ℚ) : ℝ) =
        ∑ i ∈ Finset.range (2 ^ (minDepth + 1)), 4 * ((B / 2 ^ 47 + 1 / 2 ^ 1070 : ℚ) : ℝ) := by
      rw [Finset.sum_const, Finset.card_range, nsmul_eq_mul, show minDepth + 3 = minDepth + 1 + 2 from rfl, pow_add _ (minDepth + 1)]
      push_cast
      ring
    unfold polygonLength
    rw [e, ← Finset.sum_sub_distrib]
    refine Finset.sum_le_sum fun i hi => ?_
    rw [Finset.mem_range] at hi
    have hi' : (i : ℚ) + 1 ≤ 2 ^ (minDepth + 1) := by exact_mod_cast hi
    have hpos : (0 : ℚ) < 2 ^ (minDepth + 1) := by positivity
    have n1 := near ((i : ℚ) / 2 ^ (minDepth + 1)) (by positivity) (by rw [div_le_one hpos]; linarith)
    have n2 := near (((i : ℚ) + 1) / 2 ^ (minDepth + 1)) (by positivity) (by rw [div_le_one hpos]; linarith)
    have a1 : (0 : ℝ) + i * ((1 - 0) / ((2 ^ (minDepth + 1) : ℕ) : ℝ)) = (((i : ℚ) / 2 ^ (minDepth + 1) : ℚ) : ℝ) := by push_cast; ring
    have a2 : (0 : ℝ) + ((i : ℝ) + 1) * ((1 - 0) / ((2 ^ (minDepth + 1) : ℕ) : ℝ)) = ((((i : ℚ) + 1) / 2 ^ (minDepth + 1) : ℚ) : ℝ) := by push_cast; ring
    rw [a1, a2]
    change dst _ _ - _ ≤ _
    generalize real ⟨Flt.cubicAt doubles P p.x c.x d.x q.x (i / 2 ^ (minDepth + 1)), Flt.cubicAt doubles P p.y c.y d.y q.y (i / 2 ^ (minDepth + 1))⟩ = u at *
    generalize real ⟨Flt.cubicAt doubles P p.x c.x d.x q.x ((i + 1) / 2 ^ (minDepth + 1)), Flt.cubicAt doubles P p.y c.y d.y q.y ((i + 1) / 2 ^ (minDepth + 1))⟩ = v at *
    generalize g (((i : ℚ) / 2 ^ (minDepth + 1) : ℚ) : ℝ) = gu at *
    generalize g ((((i : ℚ) + 1) / 2 ^ (minDepth + 1) : ℚ) : ℝ) = gv at *
    have t1 := dst_triangle gu u gv
    have t2 := dst_triangle u v gv
    have t3 : dst gu u = dst u gu := by unfold dst sqDist; congr 1; ring
    linarith
  have e7 : ((B / 2 ^ 47 + 1 / 2 ^ 1070 : ℚ) : ℝ) = (B : ℝ) / 2 ^ 47 + 1 / 2 ^ 1070 := by push_cast; rfl
  rw [e7] at hsum
  refine le_trans ?_ h
  have hmul := mul_le_mul_of_nonneg_left (hsum.trans' (sub_le_sub_right (show arcLength g - 3 * D / 2 ^ minDepth ≤ _ by unfold arcLength; linarith) _))
    (show (0 : ℝ) ≤ 1 - 1 / 2 ^ 37 by norm_num)
  exact sub_le_sub_right hmul _

/-- C159: the curve from (0, 0) by (1, 2) and (3, 2) to (4, 0), with the default `error` and `min_depth` -/
example (H : FloatHypot) : ∃ L : ℚ,
    lineLength doubles H (fun t => ⟨Flt.cubicAt doubles doublePow 0 1 3 4 t, Flt.cubicAt doubles doublePow 0 2 2 0 t⟩) 1075 0 1 (1 / 10 ^ 12) 5 = .ok L ∧
    (1 - 1 / 2 ^ 37) * (arcLength (bezier3 (⟨((0 : ℚ) : ℝ), ((0 : ℚ) : ℝ)⟩ : Pt ℝ) ⟨((1 : ℚ) : ℝ), ((2 : ℚ) : ℝ)⟩ ⟨((3 : ℚ) : ℝ), ((2 : ℚ) : ℝ)⟩
      ⟨((4 : ℚ) : ℝ), ((0 : ℚ) : ℝ)⟩) - 3 * 3 / 2 ^ 5 - 2 ^ (5 + 3) * (((4 : ℚ) : ℝ) / 2 ^ 47 + 1 / 2 ^ 1070)) - 1 / 2 ^ 1000 ≤ L := by
  obtain ⟨L, hL⟩ := C159_ends H (fun t => ⟨Flt.cubicAt doubles doublePow 0 1 3 4 t, Flt.cubicAt doubles doublePow 0 2 2 0 t⟩)
    (error := 1 / 10 ^ 12) (by norm_num) 5 1075 le_rfl (by norm_num)
  refine ⟨L, hL, C159_cubic doublePow H (p := ⟨0, 0⟩) (c := ⟨1, 2⟩) (d := ⟨3, 2⟩) (q := ⟨4, 0⟩) (B := 4) ?_ ?_ ?_ ?_ ?_ ?_ ?_ (by norm_num) hL⟩
  · constructor <;> norm_num
  · constructor <;> norm_num
  · constructor <;> norm_num
  · constructor <;> norm_num
  · rw [Real.sqrt_le_left (by norm_num)]; norm_num
  · rw [Real.sqrt_le_left (by norm_num)]; norm_num
  · apply one_div_le_one_div_of_le (by positivity)
    calc (10 : ℚ) ^ 12 ≤ 2 ^ 40 := by norm_num
      _ ≤ 2 ^ 1000 := pow_le_pow_right₀ (by norm_num) (by norm_num)

end Svgio.Props
