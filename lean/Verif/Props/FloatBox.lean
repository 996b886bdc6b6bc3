import Verif.Model.FloatBox
import Verif.Props.FloatError
import Verif.Props.SegGeom

/-!
C141: boxes computed with floats.
-/

namespace Svgio.Props

open Svgio.Flt Spec

/-- a point with floats as coordinates, in the plane -/
def real (p : Pt ℚ) : Pt ℝ := ⟨p.x, p.y⟩

/-- The box with these sides holds the curve and each side is touched, up to `ex` for the first coordinate and `ey` for the second. -/
def BoxUpTo (ex ey : ℚ) (f : ℝ → Pt ℝ) (x : Seg.BBox ℚ) : Prop :=
  RangeUpTo (ex : ℝ) (fun t => (f t).x) x.xmin x.xmax ∧ RangeUpTo (ey : ℝ) (fun t => (f t).y) x.ymin x.ymax

/-- from a nearby quantity `g` whose extreme values are known to the values that were computed: pairs of a parameter and a value -/
theorem range_of_near {f g : ℝ → ℝ} {k e : ℝ} {L : List (ℚ × ℚ)} {lo hi : ℚ}
    (hin : ∀ s ∈ L, (0 : ℝ) ≤ s.1 ∧ (s.1 : ℝ) ≤ 1)
    (hfg : ∀ t, 0 ≤ t → t ≤ 1 → |f t - g t| ≤ k)
    (hg : ∀ t, 0 ≤ t → t ≤ 1 → (∃ s ∈ L, g t ≤ g s.1) ∧ ∃ s ∈ L, g s.1 ≤ g t)
    (hv : ∀ s ∈ L, |f s.1 - s.2| ≤ e)
    (hlo : lo ∈ L.map Prod.snd) (hhi : hi ∈ L.map Prod.snd) (hb : ∀ y ∈ L.map Prod.snd, lo ≤ y ∧ y ≤ hi) :
    RangeUpTo (2 * k + e) f lo hi := by
  have k0 : 0 ≤ k := (abs_nonneg _).trans (hfg 0 le_rfl zero_le_one)
  have touch : ∀ y ∈ L.map Prod.snd, ∃ t : ℝ, 0 ≤ t ∧ t ≤ 1 ∧ |f t - y| ≤ 2 * k + e := by
    intro y hy
    obtain ⟨s, hs, rfl⟩ := List.mem_map.1 hy
    exact ⟨s.1, (hin s hs).1, (hin s hs).2, (hv s hs).trans (by linarith)⟩
  refine ⟨fun t t0 t1 => ?_, touch lo hlo, touch hi hhi⟩
  obtain ⟨⟨s, hs, h1⟩, u, hu, h2⟩ := hg t t0 t1
  have a0 := abs_le.1 (hfg t t0 t1)
  have a1 := abs_le.1 (hfg s.1 (hin s hs).1 (hin s hs).2)
  have a2 := abs_le.1 (hfg u.1 (hin u hu).1 (hin u hu).2)
  have b1 := abs_le.1 (hv s hs)
  have b2 := abs_le.1 (hv u hu)
  have c1 : (s.2 : ℝ) ≤ hi := by exact_mod_cast (hb _ (List.mem_map_of_mem hs)).2
  have c2 : (lo : ℝ) ≤ u.2 := by exact_mod_cast (hb _ (List.mem_map_of_mem hu)).1
  constructor <;> linarith

/-! ### quadratic curves -/

/-- the extreme values of a quadratic with a known vertex -/
theorem quad_vertex {a n d s : ℝ} (h : (d ≠ 0 ∧ n = s * d) ∨ (d = 0 ∧ s = 1 / 2)) {t : ℝ} (t0 : 0 ≤ t) (t1 : t ≤ 1) :
    (∃ u, (u = 0 ∨ u = 1 ∨ (u = s ∧ 0 < s ∧ s < 1)) ∧ a - 2 * n * t + d * t ^ 2 ≤ a - 2 * n * u + d * u ^ 2) ∧
    ∃ u, (u = 0 ∨ u = 1 ∨ (u = s ∧ 0 < s ∧ s < 1)) ∧ a - 2 * n * u + d * u ^ 2 ≤ a - 2 * n * t + d * t ^ 2 := by
  have e : ∀ t, Seg.quadAt a (a - n) (a - 2 * n + d) t = a - 2 * n * t + d * t ^ 2 := by
    intro t; simp only [Seg.quadAt]; ring
  have hr := (range_quad a (a - n) (a - 2 * n + d)).1 t t0 t1
  have hm := minOf_mem a (Seg.quadExtrema a (a - n) (a - 2 * n + d))
  have hs : (if a - 2 * (a - n) + (a - 2 * n + d) ≠ 0 then (a - (a - n)) / (a - 2 * (a - n) + (a - 2 * n + d)) else 1 / 2) = s := by
    have h1 : a - 2 * (a - n) + (a - 2 * n + d) = d := by ring
    have h2 : a - (a - n) = n := by ring
    rw [h1, h2]
    rcases h with ⟨h, h'⟩ | ⟨h, h'⟩
    · rw [if_pos h, h']; field_simp
    · rw [if_neg (by simpa using h), h']
  have key : ∀ y ∈ a :: Seg.quadExtrema a (a - n) (a - 2 * n + d),
      ∃ u, (u = 0 ∨ u = 1 ∨ (u = s ∧ 0 < s ∧ s < 1)) ∧ y = a - 2 * n * u + d * u ^ 2 := by
    intro y hy
    simp only [Seg.quadExtrema, hs, e] at hy
    split_ifs at hy with hc
    · simp only [List.mem_cons, List.not_mem_nil, or_false] at hy
      rcases hy with rfl | rfl | rfl
      · exact ⟨0, Or.inl rfl, by ring⟩
      · exact ⟨1, Or.inr (Or.inl rfl), by ring⟩
      · exact ⟨s, Or.inr (Or.inr ⟨rfl, hc⟩), rfl⟩
    · simp only [List.mem_cons, List.not_mem_nil, or_false] at hy
      rcases hy with rfl | rfl
      · exact ⟨0, Or.inl rfl, by ring⟩
      · exact ⟨1, Or.inr (Or.inl rfl), by ring⟩
  rw [e] at hr
  obtain ⟨u, hu, h1⟩ := key _ hm.1
  obtain ⟨v, hv, h2⟩ := key _ hm.2
  exact ⟨⟨v, hv, h2 ▸ hr.2⟩, u, hu, h1 ▸ hr.1⟩

/-- the numbers from which the vertex is computed -/
theorem quad_numbers {fl : ℚ → ℚ} {η B a b c : ℚ} (h0 : 0 ≤ η) (hη : η ≤ 1 / 2 ^ 100) (hfl : ∀ x, |fl x - x| ≤ |x| / 2 ^ 53 + η)
    (ha : |a| ≤ B) (hb : |b| ≤ B) (hc : |c| ≤ B) :
    |fl (a - b) - (a - b)| ≤ 2 * B / 2 ^ 53 + η ∧
    |fl (fl (a - fl (2 * b)) + c) - (a - 2 * b + c)| ≤ 10 * B / 2 ^ 53 + 4 * η := by
  have hB : 0 ≤ B := (abs_nonneg _).trans ha
  have h1 : |a - b| ≤ 2 * B := (abs_sub _ _).trans (by linarith)
  have h2 : |2 * b| ≤ 2 * B := by rw [abs_mul, abs_of_pos (by norm_num : (0 : ℚ) < 2)]; linarith
  have h3 : |a - 2 * b| ≤ 3 * B := (abs_sub _ _).trans (by linarith)
  have h4 : |a - 2 * b + c| ≤ 4 * B := (abs_add_le _ _).trans (by linarith)
  refine ⟨(hfl _).trans (by linarith), ?_⟩
  have k1 := near_fl hfl (near_self (2 * b)) h2
  have k2 : |a - fl (2 * b) - (a - 2 * b)| ≤ 0 + 2 * B / 2 ^ 53 + η := by
    rw [show a - fl (2 * b) - (a - 2 * b) = -(fl (2 * b) - 2 * b) by ring, abs_neg]
    exact k1.trans (by linarith)
  have k3 := near_fl hfl k2 h3
  have k4 := near_fl hfl (near_add k3 (near_self c)) h4
  refine k4.trans ?_
  linarith

theorem axis_quad (F : FloatRounding) (P : FloatPow) {B a b c : ℚ} (ha : |a| ≤ B) (hb : |b| ≤ B) (hc : |c| ≤ B) :
    RangeUpTo ((B / 2 ^ 46 + 1 / 2 ^ 1068 : ℚ) : ℝ) (fun t => Seg.quadAt (a : ℝ) b c t) ((Seg.minOf a (Flt.quadExtrema F P a b c) : ℚ) : ℝ)
      ((Seg.maxOf a (Flt.quadExtrema F P a b c) : ℚ) : ℝ) := by
  obtain ⟨η, e1, e2, hη0, hη⟩ := eta
  have hfl := F.err
  have hpow := P.err
  rw [e1] at hfl hpow
  have e3 : (1 : ℚ) / 2 ^ 1068 = 64 * η := by
    rw [← e1, show 1074 = 1068 + 6 from rfl, pow_add]
    field_simp
    norm_num
  rw [e3]
  have hB : 0 ≤ B := (abs_nonneg _).trans ha
  obtain ⟨hn, hd⟩ := quad_numbers hη0 hη hfl ha hb hc
  have hn0 : |a - b| ≤ 2 * B := (abs_sub _ _).trans (by linarith)
  have hd0 : |a - 2 * b + c| ≤ 4 * B :=
    (abs_add_le _ _).trans (by
      have := abs_sub a (2 * b)
      rw [abs_mul, abs_of_pos (by norm_num : (0 : ℚ) < 2)] at this
      linarith)
  -- a nearby curve with the vertex that was computed
  obtain ⟨n', d', s, hs, hv, kn, kd⟩ : ∃ n' d' s : ℚ,
      Flt.quadExtrema F P a b c = (if 0 < s ∧ s < 1 then [c, Flt.quadAt F P a b c s] else [c]) ∧
      ((d' ≠ 0 ∧ n' = s * d') ∨ (d' = 0 ∧ s = 1 / 2)) ∧ |n' - (a - b)| ≤ 5 * B / 2 ^ 53 + 2 * η ∧
      |d' - (a - 2 * b + c)| ≤ 10 * B / 2 ^ 53 + 4 * η := by
    by_cases h : F.fl (F.fl (a - F.fl (2 * b)) + c) = 0
    · refine ⟨a - b, 0, 1 / 2, ?_, Or.inr ⟨rfl, rfl⟩, ?_, ?_⟩
      · simp only [Flt.quadExtrema, h, ne_eq, not_true_eq_false, if_false]
      · rw [sub_self, abs_zero]; positivity
      · rw [h] at hd; exact hd
    · refine ⟨F.fl (F.fl (a - b) / F.fl (F.fl (a - F.fl (2 * b)) + c)) * F.fl (F.fl (a - F.fl (2 * b)) + c), _, _, ?_,
        Or.inl ⟨h, rfl⟩, ?_, hd⟩
      · simp only [Flt.quadExtrema, ne_eq, h, not_false_eq_true, if_true]
      · generalize F.fl (F.fl (a - F.fl (2 * b)) + c) = d at *
        generalize F.fl (a - b) = n at *
        have hd1 : |d| ≤ 5 * B + 4 * η := by
          have : d = (a - 2 * b + c) + (d - (a - 2 * b + c)) := by ring
          rw [this]
          exact (abs_add_le _ _).trans (by linarith)
        have hn1 : |n| ≤ 21 / 10 * B + η := by
          have : n = (a - b) + (n - (a - b)) := by ring
          rw [this]
          exact (abs_add_le _ _).trans (by linarith)
        have k := hfl (n / d)
        have k2 : |F.fl (n / d) * d - n| ≤ |n| / 2 ^ 53 + η * |d| := by
          have e : F.fl (n / d) * d - n = (F.fl (n / d) - n / d) * d := by field_simp
          rw [e, abs_mul]
          calc _ ≤ (|n / d| / 2 ^ 53 + η) * |d| := by gcongr
            _ = |n| / 2 ^ 53 + η * |d| := by
              rw [abs_div]
              have : |d| ≠ 0 := abs_ne_zero.2 h
              field_simp
        have k3 : η * |d| ≤ 1 / 2 ^ 100 * (5 * B + 4 * η) := by gcongr
        have e : F.fl (n / d) * d - (a - b) = (F.fl (n / d) * d - n) + (n - (a - b)) := by ring
        rw [e]
        refine (abs_add_le _ _).trans ?_
        linarith
  rw [hs]
  have hvR : ((d' : ℝ) ≠ 0 ∧ (n' : ℝ) = s * d') ∨ ((d' : ℝ) = 0 ∧ (s : ℝ) = 1 / 2) := by
    rcases hv with ⟨h1, h2⟩ | ⟨h1, h2⟩
    · exact Or.inl ⟨by exact_mod_cast h1, by exact_mod_cast h2⟩
    · refine Or.inr ⟨by exact_mod_cast h1, by rw [h2]; norm_num⟩
  have knR : |(n' : ℝ) - (a - b)| ≤ ((5 * B / 2 ^ 53 + 2 * η : ℚ) : ℝ) := by exact_mod_cast kn
  have kdR : |(d' : ℝ) - (a - 2 * b + c)| ≤ ((10 * B / 2 ^ 53 + 4 * η : ℚ) : ℝ) := by exact_mod_cast kd
  have near : ∀ t : ℝ, 0 ≤ t → t ≤ 1 →
      |Seg.quadAt (a : ℝ) b c t - (a - 2 * n' * t + d' * t ^ 2)| ≤ ((20 * B / 2 ^ 53 + 8 * η : ℚ) : ℝ) := by
    intro t t0 t1
    have e : Seg.quadAt (a : ℝ) b c t - (a - 2 * n' * t + d' * t ^ 2) =
        2 * t * ((n' : ℝ) - (a - b)) + t ^ 2 * -((d' : ℝ) - (a - 2 * b + c)) := by
      simp only [Seg.quadAt]; ring
    rw [e]
    refine (abs_add_le _ _).trans ?_
    rw [abs_mul (2 * t), abs_mul (t ^ 2), abs_neg, abs_of_nonneg (by positivity : 0 ≤ 2 * t), abs_of_nonneg (by positivity : 0 ≤ t ^ 2)]
    have u1 : 2 * t * |(n' : ℝ) - (a - b)| ≤ 2 * 1 * ((5 * B / 2 ^ 53 + 2 * η : ℚ) : ℝ) := by gcongr
    have u2 : t ^ 2 * |(d' : ℝ) - (a - 2 * b + c)| ≤ 1 * ((10 * B / 2 ^ 53 + 4 * η : ℚ) : ℝ) := by
      gcongr
      exact pow_le_one₀ t0 t1
    push_cast at u1 u2 ⊢
    linarith
  have q0 : Seg.quadAt (a : ℝ) b c 0 = a := by simp [Seg.quadAt]
  have q1 : Seg.quadAt (a : ℝ) b c 1 = c := by simp [Seg.quadAt]
  have fin : ∀ (L : List (ℚ × ℚ)) (l : List ℚ), a :: l = L.map Prod.snd → (∀ p ∈ L, (0 : ℝ) ≤ p.1 ∧ (p.1 : ℝ) ≤ 1) →
      (∀ u : ℝ, (u = 0 ∨ u = 1 ∨ (u = s ∧ (0 : ℝ) < s ∧ (s : ℝ) < 1)) → ∃ p ∈ L, (p.1 : ℝ) = u) →
      (∀ p ∈ L, |Seg.quadAt (a : ℝ) b c p.1 - p.2| ≤ ((B / 2 ^ 47 + 16 * η : ℚ) : ℝ)) →
      RangeUpTo ((B / 2 ^ 46 + 64 * η : ℚ) : ℝ) (fun t => Seg.quadAt (a : ℝ) b c t) ((Seg.minOf a l : ℚ) : ℝ) ((Seg.maxOf a l : ℚ) : ℝ) := by
    intro L l hl hin hL hval
    have hm := minOf_mem a l
    have hbd := minOf_le a l
    rw [hl] at hm hbd
    have := range_of_near (f := fun t => Seg.quadAt (a : ℝ) b c t) (g := fun t => a - 2 * n' * t + d' * t ^ 2) hin near (fun t t0 t1 => by
      obtain ⟨⟨u, hu, h1⟩, v, hv, h2⟩ := quad_vertex (a := a) hvR t0 t1
      obtain ⟨p, hp, rfl⟩ := hL u hu
      obtain ⟨q, hq, rfl⟩ := hL v hv
      exact ⟨⟨p, hp, h1⟩, q, hq, h2⟩) hval hm.1 hm.2 hbd
    obtain ⟨r1, ⟨t, t0, t1, r2⟩, u, u0, u1, r3⟩ := this
    have le : 2 * ((20 * B / 2 ^ 53 + 8 * η : ℚ) : ℝ) + ((B / 2 ^ 47 + 16 * η : ℚ) : ℝ) ≤ ((B / 2 ^ 46 + 64 * η : ℚ) : ℝ) := by
      have : 2 * (20 * B / 2 ^ 53 + 8 * η) + (B / 2 ^ 47 + 16 * η) ≤ B / 2 ^ 46 + 64 * η := by linarith
      exact_mod_cast this
    exact ⟨fun t t0 t1 => ⟨by linarith [(r1 t t0 t1).1], by linarith [(r1 t t0 t1).2]⟩, ⟨t, t0, t1, r2.trans le⟩, u, u0, u1, r3.trans le⟩
  have ends : (0 : ℝ) ≤ ((B / 2 ^ 47 + 16 * η : ℚ) : ℝ) := by
    have : 0 ≤ B / 2 ^ 47 + 16 * η := by positivity
    exact_mod_cast this
  by_cases hc' : 0 < s ∧ s < 1
  · rw [if_pos hc']
    have hs0 : (0 : ℝ) < s := by exact_mod_cast hc'.1
    have hs1 : (s : ℝ) < 1 := by exact_mod_cast hc'.2
    refine fin [(0, a), (1, c), (s, Flt.quadAt F P a b c s)] _ rfl ?_ ?_ ?_
    · intro p hp
      simp only [List.mem_cons, List.not_mem_nil, or_false] at hp
      rcases hp with rfl | rfl | rfl
      · norm_num
      · norm_num
      · exact ⟨hs0.le, hs1.le⟩
    · rintro u (rfl | rfl | ⟨rfl, -⟩)
      · exact ⟨(0, a), by simp, by simp⟩
      · exact ⟨(1, c), by simp, by simp⟩
      · exact ⟨(s, Flt.quadAt F P a b c s), by simp, rfl⟩
    · intro p hp
      simp only [List.mem_cons, List.not_mem_nil, or_false] at hp
      rcases hp with rfl | rfl | rfl
      · simp only [Rat.cast_zero]; rw [q0, sub_self, abs_zero]; exact ends
      · simp only [Rat.cast_one]; rw [q1, sub_self, abs_zero]; exact ends
      · have := quad_err hη0 hη hfl hpow ha hb hc hc'.1.le hc'.2.le
        rw [abs_sub_comm] at this
        simp only [Seg.quadAt, Flt.quadAt]
        exact_mod_cast this
  · rw [if_neg hc']
    have hsn : ¬((0 : ℝ) < s ∧ (s : ℝ) < 1) := fun h => hc' ⟨by exact_mod_cast h.1, by exact_mod_cast h.2⟩
    refine fin [(0, a), (1, c)] _ rfl ?_ ?_ ?_
    · intro p hp
      simp only [List.mem_cons, List.not_mem_nil, or_false] at hp
      rcases hp with rfl | rfl <;> norm_num
    · rintro u (rfl | rfl | ⟨-, h⟩)
      · exact ⟨(0, a), by simp, by simp⟩
      · exact ⟨(1, c), by simp, by simp⟩
      · exact absurd h hsn
    · intro p hp
      simp only [List.mem_cons, List.not_mem_nil, or_false] at hp
      rcases hp with rfl | rfl
      · simp only [Rat.cast_zero]; rw [q0, sub_self, abs_zero]; exact ends
      · simp only [Rat.cast_one]; rw [q1, sub_self, abs_zero]; exact ends

/-! ### cubic curves -/

/-- the extreme values of a cubic are at the ends or at zeros of the derivative -/
theorem cubic_crit {a N S D : ℝ} {C : ℝ → Prop} (hC : ∀ t, 0 < t → t < 1 → N + 2 * S * t - D * t ^ 2 = 0 → C t) {t : ℝ} (t0 : 0 ≤ t)
    (t1 : t ≤ 1) :
    (∃ u, (u = 0 ∨ u = 1 ∨ (C u ∧ 0 < u ∧ u < 1)) ∧
      a + 3 * N * t + 3 * S * t ^ 2 - D * t ^ 3 ≤ a + 3 * N * u + 3 * S * u ^ 2 - D * u ^ 3) ∧
    ∃ u, (u = 0 ∨ u = 1 ∨ (C u ∧ 0 < u ∧ u < 1)) ∧
      a + 3 * N * u + 3 * S * u ^ 2 - D * u ^ 3 ≤ a + 3 * N * t + 3 * S * t ^ 2 - D * t ^ 3 := by
  obtain ⟨g, hg⟩ : ∃ g : ℝ → ℝ, ∀ t, g t = a + 3 * N * t + 3 * S * t ^ 2 - D * t ^ 3 := ⟨_, fun _ => rfl⟩
  have hd : ∀ t, HasDerivAt g (3 * (N + 2 * S * t - D * t ^ 2)) t := by
    intro t
    have e : g = Seg.cubicAt a (a + N) (a + 2 * N + S) (a + 3 * N + 3 * S - D) := by
      funext t; rw [hg]; simp only [Seg.cubicAt]; ring
    rw [e]
    refine (cubic_hasDeriv _ _ _ _ t).congr_deriv ?_
    ring
  have cont : Continuous g := continuous_iff_continuousAt.2 fun t => (hd t).continuousAt
  have mem : ∀ s, 0 ≤ s → s ≤ 1 → (s ∈ Set.Ioo (0 : ℝ) 1 → deriv g s = 0) → s = 0 ∨ s = 1 ∨ (C s ∧ 0 < s ∧ s < 1) := by
    intro s s0 s1 hs
    rcases s0.eq_or_lt with h | h
    · exact Or.inl h.symm
    · right
      rcases s1.eq_or_lt with h' | h'
      · exact Or.inl h'
      · right
        have := hs ⟨h, h'⟩
        rw [(hd s).deriv] at this
        exact ⟨hC s h h' (by linarith), h, h'⟩
  simp only [← hg]
  constructor
  · obtain ⟨s, hs, hmax⟩ := isCompact_Icc.exists_isMaxOn (Set.nonempty_Icc.2 (zero_le_one (α := ℝ))) cont.continuousOn
    exact ⟨s, mem s hs.1 hs.2 fun hi => (hmax.isLocalMax (Icc_mem_nhds hi.1 hi.2)).deriv_eq_zero, hmax ⟨t0, t1⟩⟩
  · obtain ⟨s, hs, hmin⟩ := isCompact_Icc.exists_isMinOn (Set.nonempty_Icc.2 (zero_le_one (α := ℝ))) cont.continuousOn
    exact ⟨s, mem s hs.1 hs.2 fun hi => (hmin.isLocalMin (Icc_mem_nhds hi.1 hi.2)).deriv_eq_zero, hmin ⟨t0, t1⟩⟩

section
variable {fl : ℚ → ℚ} {η B a b c d : ℚ} (h0 : 0 ≤ η) (hη : η ≤ 1 / 2 ^ 100) (hB : η ≤ B / 2 ^ 100)
  (hfl : ∀ x, |fl x - x| ≤ |x| / 2 ^ 53 + η) (ha : |a| ≤ B) (hb : |b| ≤ B) (hc : |c| ≤ B) (hd : |d| ≤ B)
include h0 hη hB hfl ha hb hc hd

omit hη in
theorem denom_err : |fl (fl (fl (a - fl (3 * b)) + fl (3 * c)) - d) - (a - 3 * b + 3 * c - d)| ≤ 26 * B / 2 ^ 53 := by
  have hB0 : 0 ≤ B := (abs_nonneg _).trans ha
  have b3 : |3 * b| ≤ 3 * B := by rw [abs_mul, abs_of_pos (by norm_num : (0 : ℚ) < 3)]; linarith
  have c3 : |3 * c| ≤ 3 * B := by rw [abs_mul, abs_of_pos (by norm_num : (0 : ℚ) < 3)]; linarith
  have s1 : |a - 3 * b| ≤ 4 * B := (abs_sub _ _).trans (by linarith)
  have s2 : |a - 3 * b + 3 * c| ≤ 7 * B := (abs_add_le _ _).trans (by linarith)
  have s3 : |a - 3 * b + 3 * c - d| ≤ 8 * B := (abs_sub _ _).trans (by linarith)
  have k1 := near_fl hfl (near_self (3 * b)) b3
  have k2 := near_fl hfl (near_self (3 * c)) c3
  have k3 : |a - fl (3 * b) - (a - 3 * b)| ≤ 0 + (3 * B + 0) / 2 ^ 53 + η := by
    rw [show a - fl (3 * b) - (a - 3 * b) = -(fl (3 * b) - 3 * b) by ring, abs_neg]
    exact k1
  have k4 := near_fl hfl k3 s1
  have k5 := near_fl hfl (near_add k4 k2) s2
  have k6 : ∀ x y e : ℚ, |x - y| ≤ e → |x - d - (y - d)| ≤ e := by
    intro x y e h
    rwa [sub_sub_sub_cancel_right]
  have k7 := near_fl hfl (k6 _ _ _ k5) s3
  refine k7.trans ?_
  linarith

theorem delta_err {pow : ℚ → ℕ → ℚ} (hpow : ∀ x n, |pow x n - x ^ n| ≤ |x ^ n| / 2 ^ 52 + η) (hB2 : η ≤ B ^ 2 / 2 ^ 100) :
    |fl (fl (fl (pow b 2 - fl (fl (a + b) * c)) + pow c 2) + fl (fl (a - b) * d)) -
      (b ^ 2 - (a + b) * c + c ^ 2 + (a - b) * d)| ≤ 27 * B ^ 2 / 2 ^ 53 := by
  have hB0 : 0 ≤ B := (abs_nonneg _).trans ha
  have q0 : 0 ≤ B ^ 2 := by positivity
  have mul_le : ∀ {x y X Y : ℚ}, |x| ≤ X → |y| ≤ Y → |x * y| ≤ X * Y := by
    intro x y X Y hx hy
    rw [abs_mul]
    exact mul_le_mul hx hy (abs_nonneg _) ((abs_nonneg _).trans hx)
  have bb : |b ^ 2| ≤ B ^ 2 := by rw [sq, sq]; exact mul_le hb hb
  have cc : |c ^ 2| ≤ B ^ 2 := by rw [sq, sq]; exact mul_le hc hc
  have ab : |a + b| ≤ 2 * B := (abs_add_le _ _).trans (by linarith)
  have ab' : |a - b| ≤ 2 * B := (abs_sub _ _).trans (by linarith)
  have abc : |(a + b) * c| ≤ 2 * B ^ 2 := (mul_le ab hc).trans (by linarith)
  have abd : |(a - b) * d| ≤ 2 * B ^ 2 := (mul_le ab' hd).trans (by linarith)
  have p1 : |pow b 2 - b ^ 2| ≤ 21 / 10 * B ^ 2 / 2 ^ 53 := (hpow b 2).trans (by linarith)
  have p2 : |pow c 2 - c ^ 2| ≤ 21 / 10 * B ^ 2 / 2 ^ 53 := (hpow c 2).trans (by linarith)
  have k1 : |fl (a + b) - (a + b)| ≤ 21 / 10 * B / 2 ^ 53 := (near_fl hfl (near_self (a + b)) ab).trans (by linarith)
  have k2 : |fl (a - b) - (a - b)| ≤ 21 / 10 * B / 2 ^ 53 := (near_fl hfl (near_self (a - b)) ab').trans (by linarith)
  have m1 := near_fl hfl ((near_mul k1 (near_self c) ab hc).trans (show _ ≤ 21 / 10 * B ^ 2 / 2 ^ 53 by linarith)) abc
  have m2 := near_fl hfl ((near_mul k2 (near_self d) ab' hd).trans (show _ ≤ 21 / 10 * B ^ 2 / 2 ^ 53 by linarith)) abd
  have near_sub : ∀ {x x0 y y0 e f : ℚ}, |x - x0| ≤ e → |y - y0| ≤ f → |x - y - (x0 - y0)| ≤ e + f := by
    intro x x0 y y0 e f h h'
    rw [show x - y - (x0 - y0) = (x - x0) - (y - y0) by ring]
    exact (abs_sub _ _).trans (add_le_add h h')
  have s1 : |b ^ 2 - (a + b) * c| ≤ 3 * B ^ 2 := (abs_sub _ _).trans (by linarith)
  have s2 : |b ^ 2 - (a + b) * c + c ^ 2| ≤ 4 * B ^ 2 := (abs_add_le _ _).trans (by linarith)
  have s3 : |b ^ 2 - (a + b) * c + c ^ 2 + (a - b) * d| ≤ 6 * B ^ 2 := (abs_add_le _ _).trans (by linarith)
  have t1 := near_fl hfl (near_sub p1 m1) s1
  have t2 := near_fl hfl (near_add t1 p2) s2
  have t3 := near_fl hfl (near_add t2 m2) s3
  refine t3.trans ?_
  linarith

/-- a computed root, times the denominator -/
theorem root_err {T s D X : ℚ} (hD : D ≠ 0) (hD1 : |D| ≤ 9 * B) (hX : |X| ≤ 13 / 2 * B) (hT : |T + s - X| ≤ 101 / 10 * B / 2 ^ 53) :
    |D * fl (fl (T + s) / D) - X| ≤ 24 * B / 2 ^ 53 := by
  have hB0 : 0 ≤ B := (abs_nonneg _).trans ha
  have k1 : |fl (T + s) - X| ≤ 168 / 10 * B / 2 ^ 53 := (near_fl hfl hT hX).trans (by linarith)
  generalize fl (T + s) = p at *
  have hp : |p| ≤ 66 / 10 * B := by
    rw [show p = X + (p - X) by ring]
    exact (abs_add_le _ _).trans (by linarith)
  have k := hfl (p / D)
  have k2 : |D * fl (p / D) - p| ≤ |p| / 2 ^ 53 + η * |D| := by
    have e : D * fl (p / D) - p = (fl (p / D) - p / D) * D := by field_simp
    rw [e, abs_mul]
    calc _ ≤ (|p / D| / 2 ^ 53 + η) * |D| := by gcongr
      _ = |p| / 2 ^ 53 + η * |D| := by
        rw [abs_div]
        have : |D| ≠ 0 := abs_ne_zero.2 hD
        field_simp
  have k3 : η * |D| ≤ 1 / 2 ^ 100 * (9 * B) := by gcongr
  rw [show D * fl (p / D) - X = (D * fl (p / D) - p) + (p - X) by ring]
  refine (abs_add_le _ _).trans ?_
  linarith

end

/-- a nearby cubic curve whose extreme values are at the parameters that were computed -/
theorem cubic_near (F : FloatRounding) (P : FloatPow) (S : FloatSqrt) {B a b c d : ℚ} (ha : |a| ≤ B) (hb : |b| ≤ B) (hc : |c| ≤ B)
    (hd : |d| ≤ B) (hB : 1 / 2 ^ 1074 ≤ B / 2 ^ 100) (hB2 : 1 / 2 ^ 1074 ≤ B ^ 2 / 2 ^ 100)
    (hbig : F.fl (1 / 10 ^ 12) ≤ |denomOf F a b c d|) (hne : denomOf F a b c d ≠ 0) :
    ∃ N T : ℚ, |denomOf F a b c d - (a - 3 * b + 3 * c - d)| ≤ 26 * B / 2 ^ 53 ∧ |T - (a - 2 * b + c)| ≤ 24 * B / 2 ^ 53 ∧
      |denomOf F a b c d * (N - (b - a))| ≤ 430 * B ^ 2 / 2 ^ 53 ∧
      ∀ t : ℝ, 0 < t → t < 1 → (N : ℝ) + 2 * T * t - denomOf F a b c d * t ^ 2 = 0 →
        ∃ s ∈ Flt.extremizers F P S a b c d, (s : ℝ) = t := by
  obtain ⟨η, e1, e2, hη0, hη⟩ := eta
  have hfl := F.err
  have hpow := P.err
  rw [e1] at hfl hpow hB hB2
  have hB0 : 0 ≤ B := (abs_nonneg _).trans ha
  have q0 : 0 ≤ B ^ 2 := by positivity
  have kD := denom_err hη0 hB hfl ha hb hc hd
  have kδ := delta_err hη0 hη hB hfl ha hb hc hd hpow hB2
  have kT := (quad_numbers hη0 hη hfl ha hb hc).2
  change |denomOf F a b c d - _| ≤ _ at kD
  change |deltaOf F P a b c d - _| ≤ _ at kδ
  change |tauOf F a b c - _| ≤ _ at kT
  have hex : Flt.extremizers F P S a b c d = if deltaOf F P a b c d ≥ 0 then
      [1] ++ (if 0 < F.fl (F.fl (tauOf F a b c + S.sqrt (deltaOf F P a b c d)) / denomOf F a b c d) ∧
          F.fl (F.fl (tauOf F a b c + S.sqrt (deltaOf F P a b c d)) / denomOf F a b c d) < 1
        then [F.fl (F.fl (tauOf F a b c + S.sqrt (deltaOf F P a b c d)) / denomOf F a b c d)] else []) ++
        (if 0 < F.fl (F.fl (tauOf F a b c - S.sqrt (deltaOf F P a b c d)) / denomOf F a b c d) ∧
          F.fl (F.fl (tauOf F a b c - S.sqrt (deltaOf F P a b c d)) / denomOf F a b c d) < 1
        then [F.fl (F.fl (tauOf F a b c - S.sqrt (deltaOf F P a b c d)) / denomOf F a b c d)] else [])
      else [1] := by
    simp only [Flt.extremizers]
    rw [if_pos hbig]
  rw [hex]
  generalize denomOf F a b c d = D at *
  generalize deltaOf F P a b c d = δ at *
  generalize tauOf F a b c = T at *
  have hn : |b - a| ≤ 2 * B := (abs_sub _ _).trans (by linarith)
  have hτ : |a - 2 * b + c| ≤ 4 * B :=
    (abs_add_le _ _).trans (by
      have := abs_sub a (2 * b)
      rw [abs_mul, abs_of_pos (by norm_num : (0 : ℚ) < 2)] at this
      linarith)
  have hD0 : |a - 3 * b + 3 * c - d| ≤ 8 * B := by
    have t1 := abs_sub (a - 3 * b + 3 * c) d
    have t2 := abs_add_le (a - 3 * b) (3 * c)
    have t3 := abs_sub a (3 * b)
    rw [abs_mul, abs_of_pos (by norm_num : (0 : ℚ) < 3)] at t2 t3
    linarith
  have hD1 : |D| ≤ 9 * B := by
    rw [show D = (a - 3 * b + 3 * c - d) + (D - (a - 3 * b + 3 * c - d)) by ring]
    exact (abs_add_le _ _).trans (by linarith)
  have hδ : |b ^ 2 - (a + b) * c + c ^ 2 + (a - b) * d| ≤ 6 * B ^ 2 := by
    have mul_le : ∀ {x y X Y : ℚ}, |x| ≤ X → |y| ≤ Y → |x * y| ≤ X * Y := by
      intro x y X Y hx hy
      rw [abs_mul]
      exact mul_le_mul hx hy (abs_nonneg _) ((abs_nonneg _).trans hx)
    have t1 := abs_add_le (b ^ 2 - (a + b) * c + c ^ 2) ((a - b) * d)
    have t2 := abs_add_le (b ^ 2 - (a + b) * c) (c ^ 2)
    have t3 := abs_sub (b ^ 2) ((a + b) * c)
    have u1 := mul_le hb hb
    have u2 := mul_le hc hc
    have u3 := mul_le ((abs_add_le a b).trans (add_le_add ha hb)) hc
    have u4 := mul_le ((abs_sub a b).trans (add_le_add ha hb)) hd
    rw [← sq] at u1 u2
    linarith
  have hid : b ^ 2 - (a + b) * c + c ^ 2 + (a - b) * d = (a - 2 * b + c) ^ 2 + (a - 3 * b + 3 * c - d) * (b - a) := by ring
  have kDn : |(D - (a - 3 * b + 3 * c - d)) * (b - a)| ≤ 52 * B ^ 2 / 2 ^ 53 := by
    rw [abs_mul]
    exact (mul_le_mul kD hn (abs_nonneg _) (by positivity)).trans (by linarith)
  by_cases hpos : 0 ≤ δ
  · rw [if_pos hpos]
    have ks := S.err δ hpos
    have hs0 := S.nonneg δ
    generalize S.sqrt δ = s at *
    have hδ1 : δ ≤ 61 / 10 * B ^ 2 := by
      have := abs_le.1 kδ
      have := abs_le.1 hδ
      linarith
    have ks2 : |s ^ 2 - (b ^ 2 - (a + b) * c + c ^ 2 + (a - b) * d)| ≤ 52 * B ^ 2 / 2 ^ 53 := by
      rw [show s ^ 2 - (b ^ 2 - (a + b) * c + c ^ 2 + (a - b) * d) = (s ^ 2 - δ) + (δ - (b ^ 2 - (a + b) * c + c ^ 2 + (a - b) * d)) by ring]
      exact (abs_add_le _ _).trans (by linarith)
    have hs1 : s ≤ 5 / 2 * B := by
      have h1 := abs_le.1 ks2
      have h2 := abs_le.1 hδ
      have h3 : s ^ 2 ≤ (5 / 2 * B) ^ 2 := by linarith
      exact (le_abs_self _).trans (abs_le_of_sq_le_sq h3 (by positivity))
    have hX1 : |a - 2 * b + c + s| ≤ 13 / 2 * B := (abs_add_le _ _).trans (by rw [abs_of_nonneg hs0]; linarith)
    have hX2 : |a - 2 * b + c - s| ≤ 13 / 2 * B := (abs_sub _ _).trans (by rw [abs_of_nonneg hs0]; linarith)
    have kT1 : |T - (a - 2 * b + c)| ≤ 101 / 10 * B / 2 ^ 53 := kT.trans (by linarith)
    have r1 := root_err hη0 hη hB hfl ha hb hc hd hne hD1 hX1
      (show |T + s - (a - 2 * b + c + s)| ≤ _ by rw [add_sub_add_right_eq_sub]; exact kT1)
    have r2 := root_err hη0 hη hB hfl ha hb hc hd hne hD1 hX2 (T := T) (s := -s)
      (by rw [show T + -s - (a - 2 * b + c - s) = T - (a - 2 * b + c) by ring]; exact kT1)
    rw [← sub_eq_add_neg] at r2
    generalize F.fl (F.fl (T + s) / D) = x at *
    generalize F.fl (F.fl (T - s) / D) = y at *
    refine ⟨-(D * x * y), (D * x + D * y) / 2, kD, ?_, ?_, ?_⟩
    · rw [show (D * x + D * y) / 2 - (a - 2 * b + c) =
        ((D * x - (a - 2 * b + c + s)) + (D * y - (a - 2 * b + c - s))) / 2 by ring, abs_div, abs_of_pos (by norm_num : (0 : ℚ) < 2)]
      have := abs_add_le (D * x - (a - 2 * b + c + s)) (D * y - (a - 2 * b + c - s))
      linarith
    · have m := near_mul r1 r2 hX1 hX2
      have e : D * (-(D * x * y) - (b - a)) = -(D * x * (D * y) - (a - 2 * b + c + s) * (a - 2 * b + c - s)) +
          (s ^ 2 - (b ^ 2 - (a + b) * c + c ^ 2 + (a - b) * d)) - (D - (a - 3 * b + 3 * c - d)) * (b - a) := by ring
      rw [e]
      refine (abs_sub _ _).trans ?_
      have t := abs_add_le (-(D * x * (D * y) - (a - 2 * b + c + s) * (a - 2 * b + c - s)))
        (s ^ 2 - (b ^ 2 - (a + b) * c + c ^ 2 + (a - b) * d))
      rw [abs_neg] at t
      linarith
    · intro t t0 t1 ht
      push_cast at ht
      have hDR : (D : ℝ) ≠ 0 := by exact_mod_cast hne
      have : (t - x) * (t - y) = 0 := by
        have h1 : (D : ℝ) * ((t - x) * (t - y)) = 0 := by linear_combination -ht
        exact (mul_eq_zero.1 h1).resolve_left hDR
      rcases mul_eq_zero.1 this with h | h
      · have hx : t = x := by linarith
        subst hx
        refine ⟨x, ?_, rfl⟩
        have hc : 0 < x ∧ x < 1 := ⟨by exact_mod_cast t0, by exact_mod_cast t1⟩
        rw [if_pos hc]
        simp
      · have hy : t = y := by linarith
        subst hy
        refine ⟨y, ?_, rfl⟩
        have hc : 0 < y ∧ y < 1 := ⟨by exact_mod_cast t0, by exact_mod_cast t1⟩
        rw [if_pos hc]
        simp
  · rw [if_neg hpos]
    refine ⟨(δ - (a - 2 * b + c) ^ 2) / D, a - 2 * b + c, kD, ?_, ?_, ?_⟩
    · rw [sub_self, abs_zero]; positivity
    · have e : D * ((δ - (a - 2 * b + c) ^ 2) / D - (b - a)) =
          (δ - (b ^ 2 - (a + b) * c + c ^ 2 + (a - b) * d)) - (D - (a - 3 * b + 3 * c - d)) * (b - a) := by
        rw [hid]; field_simp; ring
      rw [e]
      refine (abs_sub _ _).trans ?_
      linarith
    · intro t t0 t1 ht
      exfalso
      have hDR : (D : ℝ) ≠ 0 := by exact_mod_cast hne
      have hδR : (δ : ℝ) < 0 := by exact_mod_cast not_le.1 hpos
      push_cast at ht
      have : (δ : ℝ) - (D * t - (a - 2 * b + c)) ^ 2 = 0 := by
        have h1 : (D : ℝ) * ((δ - (a - 2 * b + c) ^ 2) / D + 2 * (a - 2 * b + c) * t - D * t ^ 2) = 0 := by rw [ht, mul_zero]
        have h2 : (D : ℝ) * ((δ - (a - 2 * b + c) ^ 2) / D + 2 * (a - 2 * b + c) * t - D * t ^ 2) =
            (δ : ℝ) - (D * t - (a - 2 * b + c)) ^ 2 := by field_simp; ring
        rw [← h2, h1]
      nlinarith [sq_nonneg ((D : ℝ) * t - (a - 2 * b + c))]

/-- the parameters that were computed, with the values there -/
def cubicPairs (F : FloatRounding) (P : FloatPow) (S : FloatSqrt) (a b c d : ℚ) : List (ℚ × ℚ) :=
  (0 :: Flt.extremizers F P S a b c d).map fun s => (s, Flt.cubicAt F P a b c d s)

section
variable (F : FloatRounding) (P : FloatPow) (S : FloatSqrt) (a b c d : ℚ)

theorem flt_extremizers_range : ∀ t ∈ Flt.extremizers F P S a b c d, 0 ≤ t ∧ t ≤ 1 := by
  intro t ht
  simp only [Flt.extremizers] at ht
  split at ht
  · split at ht
    · simp only [List.mem_append, List.mem_cons, List.not_mem_nil, or_false] at ht
      rcases ht with (rfl | ht) | ht
      · norm_num
      · split at ht
        · rename_i h; simp at ht; subst ht; exact ⟨h.1.le, h.2.le⟩
        · simp at ht
      · split at ht
        · rename_i h; simp at ht; subst ht; exact ⟨h.1.le, h.2.le⟩
        · simp at ht
    · simp at ht; subst ht; norm_num
  · simp at ht; rcases ht with rfl | rfl <;> norm_num

theorem one_mem_flt_extremizers : (1 : ℚ) ∈ Flt.extremizers F P S a b c d := by
  simp only [Flt.extremizers]
  split
  · split <;> simp
  · simp

theorem pairs_range : ∀ s ∈ cubicPairs F P S a b c d, 0 ≤ s.1 ∧ s.1 ≤ 1 := by
  intro s hs
  obtain ⟨t, ht, rfl⟩ := List.mem_map.1 hs
  rcases List.mem_cons.1 ht with rfl | ht
  · norm_num
  · exact flt_extremizers_range F P S a b c d t ht

theorem pairs_sides : (Flt.realMinMax F P S a b c d).1 ∈ (cubicPairs F P S a b c d).map Prod.snd ∧
    (Flt.realMinMax F P S a b c d).2 ∈ (cubicPairs F P S a b c d).map Prod.snd ∧
    ∀ y ∈ (cubicPairs F P S a b c d).map Prod.snd, (Flt.realMinMax F P S a b c d).1 ≤ y ∧ y ≤ (Flt.realMinMax F P S a b c d).2 := by
  have e : (cubicPairs F P S a b c d).map Prod.snd =
      Flt.cubicAt F P a b c d 0 :: (Flt.extremizers F P S a b c d).map (Flt.cubicAt F P a b c d) := by
    simp only [cubicPairs, List.map_map, List.map_cons]
    rfl
  rw [e]
  exact ⟨(minOf_mem _ _).1, (minOf_mem _ _).2, minOf_le _ _⟩

variable {B a b c d} (ha : |a| ≤ B) (hb : |b| ≤ B) (hc : |c| ≤ B) (hd : |d| ≤ B)
include ha hb hc hd

theorem flt_cubic_err {t : ℚ} (t0 : 0 ≤ t) (t1 : t ≤ 1) :
    |Seg.cubicAt (a : ℝ) b c d t - (Flt.cubicAt F P a b c d t : ℚ)| ≤ ((B / 2 ^ 47 + 1 / 2 ^ 1070 : ℚ) : ℝ) := by
  obtain ⟨η, e1, e2, hη0, hη⟩ := eta
  have hfl := F.err
  have hpow := P.err
  rw [e1] at hfl hpow
  rw [e2]
  have := cubic_err hη0 hη hfl hpow ha hb hc hd t0 t1
  rw [abs_sub_comm] at this
  simp only [Seg.cubicAt, Flt.cubicAt]
  exact_mod_cast this

theorem pairs_err : ∀ s ∈ cubicPairs F P S a b c d, |Seg.cubicAt (a : ℝ) b c d s.1 - s.2| ≤ ((B / 2 ^ 47 + 1 / 2 ^ 1070 : ℚ) : ℝ) := by
  intro s hs
  have hr := pairs_range F P S a b c d s hs
  obtain ⟨t, ht, rfl⟩ := List.mem_map.1 hs
  exact flt_cubic_err F P ha hb hc hd hr.1 hr.2

/-- both values are taken, up to the error of a point -/
theorem axis_touch : (∃ t : ℝ, 0 ≤ t ∧ t ≤ 1 ∧ |Seg.cubicAt (a : ℝ) b c d t - ((Flt.realMinMax F P S a b c d).1 : ℚ)| ≤
      ((B / 2 ^ 47 + 1 / 2 ^ 1070 : ℚ) : ℝ)) ∧
    ∃ t : ℝ, 0 ≤ t ∧ t ≤ 1 ∧ |Seg.cubicAt (a : ℝ) b c d t - ((Flt.realMinMax F P S a b c d).2 : ℚ)| ≤
      ((B / 2 ^ 47 + 1 / 2 ^ 1070 : ℚ) : ℝ) := by
  have key : ∀ y ∈ (cubicPairs F P S a b c d).map Prod.snd, ∃ t : ℝ, 0 ≤ t ∧ t ≤ 1 ∧ |Seg.cubicAt (a : ℝ) b c d t - (y : ℚ)| ≤
      ((B / 2 ^ 47 + 1 / 2 ^ 1070 : ℚ) : ℝ) := by
    intro y hy
    obtain ⟨s, hs, rfl⟩ := List.mem_map.1 hy
    have hr := pairs_range F P S a b c d s hs
    exact ⟨s.1, by exact_mod_cast hr.1, by exact_mod_cast hr.2, pairs_err F P S ha hb hc hd s hs⟩
  obtain ⟨h1, h2, -⟩ := pairs_sides F P S a b c d
  exact ⟨key _ h1, key _ h2⟩

/-- inner coordinates between the outer ones -/
theorem axis_inner (hib : min a d ≤ b ∧ b ≤ max a d) (hic : min a d ≤ c ∧ c ≤ max a d) :
    RangeUpTo ((B / 2 ^ 47 + 1 / 2 ^ 1070 : ℚ) : ℝ) (fun t => Seg.cubicAt (a : ℝ) b c d t) ((Flt.realMinMax F P S a b c d).1 : ℚ)
      ((Flt.realMinMax F P S a b c d).2 : ℚ) := by
  refine ⟨fun t t0 t1 => ?_, axis_touch F P S ha hb hc hd⟩
  have p0 : (0, Flt.cubicAt F P a b c d 0) ∈ cubicPairs F P S a b c d := List.mem_map.2 ⟨0, by simp, rfl⟩
  have p1 : (1, Flt.cubicAt F P a b c d 1) ∈ cubicPairs F P S a b c d :=
    List.mem_map.2 ⟨1, List.mem_cons_of_mem _ (one_mem_flt_extremizers F P S a b c d), rfl⟩
  have k0 := pairs_err F P S ha hb hc hd _ p0
  have k1 := pairs_err F P S ha hb hc hd _ p1
  obtain ⟨-, -, h3⟩ := pairs_sides F P S a b c d
  have b0 := h3 _ (List.mem_map_of_mem p0)
  have b1 := h3 _ (List.mem_map_of_mem p1)
  simp only at k0 k1 b0 b1
  have e0 : Seg.cubicAt (a : ℝ) b c d ((0 : ℚ) : ℝ) = a := by simp [Seg.cubicAt]
  have e1 : Seg.cubicAt (a : ℝ) b c d ((1 : ℚ) : ℝ) = d := by simp [Seg.cubicAt]
  rw [e0] at k0
  rw [e1] at k1
  have b0l : (((Flt.realMinMax F P S a b c d).1 : ℚ) : ℝ) ≤ (Flt.cubicAt F P a b c d 0 : ℚ) := by exact_mod_cast b0.1
  have b0r : ((Flt.cubicAt F P a b c d 0 : ℚ) : ℝ) ≤ ((Flt.realMinMax F P S a b c d).2 : ℚ) := by exact_mod_cast b0.2
  have b1l : (((Flt.realMinMax F P S a b c d).1 : ℚ) : ℝ) ≤ (Flt.cubicAt F P a b c d 1 : ℚ) := by exact_mod_cast b1.1
  have b1r : ((Flt.cubicAt F P a b c d 1 : ℚ) : ℝ) ≤ ((Flt.realMinMax F P S a b c d).2 : ℚ) := by exact_mod_cast b1.2
  have k0' := abs_le.1 k0
  have k1' := abs_le.1 k1
  generalize (((Flt.realMinMax F P S a b c d).1 : ℚ) : ℝ) = lo at *
  generalize (((Flt.realMinMax F P S a b c d).2 : ℚ) : ℝ) = hi at *
  generalize ((B / 2 ^ 47 + 1 / 2 ^ 1070 : ℚ) : ℝ) = e at *
  have hlo : lo - e ≤ min (a : ℝ) d := le_min (by linarith) (by linarith)
  have hhi : max (a : ℝ) d ≤ hi + e := max_le (by linarith) (by linarith)
  have ibl : min (a : ℝ) d ≤ b := by exact_mod_cast hib.1
  have ibr : (b : ℝ) ≤ max (a : ℝ) d := by exact_mod_cast hib.2
  have icl : min (a : ℝ) d ≤ c := by exact_mod_cast hic.1
  have icr : (c : ℝ) ≤ max (a : ℝ) d := by exact_mod_cast hic.2
  have la := min_le_left (a : ℝ) d
  have ld := min_le_right (a : ℝ) d
  have ua := le_max_left (a : ℝ) d
  have ud := le_max_right (a : ℝ) d
  have n0 : 0 ≤ 1 - t := by linarith
  have w0 : 0 ≤ (1 - t) ^ 3 := by positivity
  have w1 : 0 ≤ 3 * ((1 - t) ^ 2 * t) := by positivity
  have w2 : 0 ≤ 3 * ((1 - t) * t ^ 2) := by positivity
  have w3 : 0 ≤ t ^ 3 := by positivity
  have ee : ∀ z, Seg.cubicAt (a : ℝ) b c d t - z = (1 - t) ^ 3 * (a - z) + 3 * ((1 - t) ^ 2 * t) * (b - z) +
      3 * ((1 - t) * t ^ 2) * (c - z) + t ^ 3 * (d - z) := by intro z; simp only [Seg.cubicAt]; ring
  constructor
  · refine hlo.trans ?_
    rw [← sub_nonneg, ee]
    have := mul_nonneg w0 (sub_nonneg.2 la)
    have := mul_nonneg w1 (sub_nonneg.2 ibl)
    have := mul_nonneg w2 (sub_nonneg.2 icl)
    have := mul_nonneg w3 (sub_nonneg.2 ld)
    linarith
  · refine le_trans ?_ hhi
    rw [← sub_nonpos, ee]
    have := mul_nonneg w0 (sub_nonneg.2 ua)
    have := mul_nonneg w1 (sub_nonneg.2 ibr)
    have := mul_nonneg w2 (sub_nonneg.2 icr)
    have := mul_nonneg w3 (sub_nonneg.2 ud)
    linarith

theorem axis_big (h : 3 / 10 ^ 12 ≤ |a - 3 * b + 3 * c - d|) :
    RangeUpTo ((B ^ 2 / (2 ^ 39 * |a - 3 * b + 3 * c - d|) : ℚ) : ℝ) (fun t => Seg.cubicAt (a : ℝ) b c d t)
      ((Flt.realMinMax F P S a b c d).1 : ℚ) ((Flt.realMinMax F P S a b c d).2 : ℚ) := by
  have hB0 : 0 ≤ B := (abs_nonneg _).trans ha
  have hD0 : |a - 3 * b + 3 * c - d| ≤ 8 * B := by
    have t1 := abs_sub (a - 3 * b + 3 * c) d
    have t2 := abs_add_le (a - 3 * b) (3 * c)
    have t3 := abs_sub a (3 * b)
    rw [abs_mul, abs_of_pos (by norm_num : (0 : ℚ) < 3)] at t2 t3
    linarith
  have hDpos : 0 < |a - 3 * b + 3 * c - d| := lt_of_lt_of_le (by norm_num) h
  have hBlow : 1 / 2 ^ 42 ≤ B := by
    have : (1 : ℚ) / 2 ^ 42 * 8 ≤ 3 / 10 ^ 12 := by norm_num
    linarith
  have t1 : (1 : ℚ) / 2 ^ 1070 ≤ 1 / 2 ^ 184 := by
    apply one_div_le_one_div_of_le (by positivity)
    exact pow_le_pow_right₀ (by norm_num) (by norm_num)
  have t2 : (1 : ℚ) / 2 ^ 1074 ≤ 1 / 2 ^ 1070 := by
    apply one_div_le_one_div_of_le (by positivity)
    exact pow_le_pow_right₀ (by norm_num) (by norm_num)
  generalize (1 : ℚ) / 2 ^ 1070 = η at t1 t2
  have hBη : 1 / 2 ^ 1074 ≤ B / 2 ^ 100 := by
    refine t2.trans (t1.trans ?_)
    have : (1 : ℚ) / 2 ^ 184 ≤ 1 / 2 ^ 42 / 2 ^ 100 := by norm_num
    linarith
  have hB2 : 1 / 2 ^ 1074 ≤ B ^ 2 / 2 ^ 100 := by
    refine t2.trans (t1.trans ?_)
    have h1 : (1 / 2 ^ 42) ^ 2 ≤ B ^ 2 := pow_le_pow_left₀ (by positivity) hBlow 2
    have : (1 : ℚ) / 2 ^ 184 ≤ (1 / 2 ^ 42) ^ 2 / 2 ^ 100 := by norm_num
    linarith
  have t3 : (1 : ℚ) / 2 ^ 1070 ≤ B / 2 ^ 100 := by
    have : (1 : ℚ) / 2 ^ 1070 ≤ 1 / 2 ^ 184 := by
      apply one_div_le_one_div_of_le (by positivity)
      exact pow_le_pow_right₀ (by norm_num) (by norm_num)
    have : (1 : ℚ) / 2 ^ 184 ≤ 1 / 2 ^ 42 / 2 ^ 100 := by norm_num
    linarith
  have hpt : B / 2 ^ 47 + 1 / 2 ^ 1070 ≤ 65 * B / 2 ^ 53 := by linarith
  have hB65 : 65 * B / 2 ^ 53 ≤ 520 / 2 ^ 53 * (B ^ 2 / |a - 3 * b + 3 * c - d|) := by
    rw [mul_div_assoc', le_div_iff₀ hDpos]
    nlinarith
  have tol : B ^ 2 / (2 ^ 39 * |a - 3 * b + 3 * c - d|) = 16384 / 2 ^ 53 * (B ^ 2 / |a - 3 * b + 3 * c - d|) := by
    field_simp
    norm_num
  rw [tol]
  have hq : 0 ≤ B ^ 2 / |a - 3 * b + 3 * c - d| := by positivity
  have weaken : ∀ {e1 e2 lo hi : ℝ} {f : ℝ → ℝ}, e1 ≤ e2 → RangeUpTo e1 f lo hi → RangeUpTo e2 f lo hi := by
    rintro e1 e2 lo hi f h ⟨r1, ⟨t, t0, t1, r2⟩, u, u0, u1, r3⟩
    exact ⟨fun t t0 t1 => ⟨by linarith [(r1 t t0 t1).1], by linarith [(r1 t t0 t1).2]⟩, ⟨t, t0, t1, r2.trans h⟩, u, u0, u1, r3.trans h⟩
  by_cases hcase : 52 * B / 2 ^ 53 ≤ |a - 3 * b + 3 * c - d|
  · have kD := denom_err (fl := F.fl) (η := 1 / 2 ^ 1074) (by positivity) hBη F.err ha hb hc hd
    change |denomOf F a b c d - _| ≤ _ at kD
    have hhalf : |a - 3 * b + 3 * c - d| ≤ 2 * |denomOf F a b c d| := by
      have := abs_sub_abs_le_abs_sub (a - 3 * b + 3 * c - d) (denomOf F a b c d)
      rw [abs_sub_comm (a - 3 * b + 3 * c - d) (denomOf F a b c d)] at this
      linarith
    have hne : denomOf F a b c d ≠ 0 := by
      intro h0
      rw [h0, abs_zero] at hhalf
      linarith
    have hbig : F.fl (1 / 10 ^ 12) ≤ |denomOf F a b c d| := by
      have k := (abs_le.1 (F.err (1 / 10 ^ 12))).2
      rw [abs_of_pos (by norm_num : (0 : ℚ) < 1 / 10 ^ 12)] at k
      have t4 : (1 : ℚ) / 2 ^ 1074 ≤ 1 / 2 ^ 100 := tiny
      have : (1 : ℚ) / 10 ^ 12 + (1 / 10 ^ 12 / 2 ^ 53 + 1 / 2 ^ 100) ≤ 3 / 10 ^ 12 / 2 := by norm_num
      linarith
    obtain ⟨N, T, -, kT, kN, crit⟩ := cubic_near F P S ha hb hc hd hBη hB2 hbig hne
    have hDp : 0 < |denomOf F a b c d| := abs_pos.2 hne
    have hD9 : |denomOf F a b c d| ≤ 9 * B := by
      rw [show denomOf F a b c d = (a - 3 * b + 3 * c - d) + (denomOf F a b c d - (a - 3 * b + 3 * c - d)) by ring]
      exact (abs_add_le _ _).trans (by linarith)
    have hgap : 3 * |N - (b - a)| + 3 * |T - (a - 2 * b + c)| + |denomOf F a b c d - (a - 3 * b + 3 * c - d)| ≤
        4344 / 2 ^ 53 * (B ^ 2 / |a - 3 * b + 3 * c - d|) := by
      have s1 : (3 * |N - (b - a)| + 98 * B / 2 ^ 53) * |denomOf F a b c d| ≤ 2172 * B ^ 2 / 2 ^ 53 := by
        rw [abs_mul] at kN
        have : 98 * B / 2 ^ 53 * |denomOf F a b c d| ≤ 98 * B / 2 ^ 53 * (9 * B) := by gcongr
        nlinarith
      have s2 : 3 * |N - (b - a)| + 98 * B / 2 ^ 53 ≤ 2172 * B ^ 2 / 2 ^ 53 / |denomOf F a b c d| := by
        rw [le_div_iff₀ hDp]; exact s1
      have s3 : 2172 * B ^ 2 / 2 ^ 53 / |denomOf F a b c d| ≤ 4344 / 2 ^ 53 * (B ^ 2 / |a - 3 * b + 3 * c - d|) := by
        rw [mul_div_assoc', div_le_div_iff₀ hDp hDpos]
        have : 2172 * B ^ 2 / 2 ^ 53 * |a - 3 * b + 3 * c - d| ≤ 2172 * B ^ 2 / 2 ^ 53 * (2 * |denomOf F a b c d|) := by gcongr
        linarith
      linarith
    have near : ∀ t : ℝ, 0 ≤ t → t ≤ 1 →
        |Seg.cubicAt (a : ℝ) b c d t - (a + 3 * N * t + 3 * T * t ^ 2 - denomOf F a b c d * t ^ 3)| ≤
          ((4344 / 2 ^ 53 * (B ^ 2 / |a - 3 * b + 3 * c - d|) : ℚ) : ℝ) := by
      intro t t0 t1
      have e : Seg.cubicAt (a : ℝ) b c d t - (a + 3 * N * t + 3 * T * t ^ 2 - denomOf F a b c d * t ^ 3) =
          -(3 * t * ((N - (b - a) : ℚ) : ℝ)) + -(3 * t ^ 2 * ((T - (a - 2 * b + c) : ℚ) : ℝ)) +
            t ^ 3 * ((denomOf F a b c d - (a - 3 * b + 3 * c - d) : ℚ) : ℝ) := by
        simp only [Seg.cubicAt]; push_cast; ring
      rw [e]
      have hgapR : (((3 * |N - (b - a)| + 3 * |T - (a - 2 * b + c)| + |denomOf F a b c d - (a - 3 * b + 3 * c - d)| : ℚ)) : ℝ) ≤
        ((4344 / 2 ^ 53 * (B ^ 2 / |a - 3 * b + 3 * c - d|) : ℚ) : ℝ) := by exact_mod_cast hgap
      refine le_trans ?_ hgapR
      generalize N - (b - a) = x
      generalize T - (a - 2 * b + c) = y
      generalize denomOf F a b c d - (a - 3 * b + 3 * c - d) = z
      push_cast
      have p2 : t ^ 2 ≤ 1 := pow_le_one₀ t0 t1
      have p3 : t ^ 3 ≤ 1 := pow_le_one₀ t0 t1
      refine (abs_add_le _ _).trans (add_le_add ((abs_add_le _ _).trans (add_le_add ?_ ?_)) ?_)
      · rw [abs_neg, abs_mul, abs_of_nonneg (by positivity : 0 ≤ 3 * t)]
        have := abs_nonneg (x : ℝ)
        nlinarith
      · rw [abs_neg, abs_mul, abs_of_nonneg (by positivity : 0 ≤ 3 * t ^ 2)]
        have := abs_nonneg (y : ℝ)
        nlinarith
      · rw [abs_mul, abs_of_nonneg (by positivity : 0 ≤ t ^ 3)]
        have := abs_nonneg (z : ℝ)
        nlinarith
    obtain ⟨m1, m2, m3⟩ := pairs_sides F P S a b c d
    refine weaken ?_ (range_of_near (f := fun t => Seg.cubicAt (a : ℝ) b c d t)
      (g := fun t => a + 3 * N * t + 3 * T * t ^ 2 - denomOf F a b c d * t ^ 3) (L := cubicPairs F P S a b c d)
      (fun s hs => ⟨by exact_mod_cast (pairs_range F P S a b c d s hs).1, by exact_mod_cast (pairs_range F P S a b c d s hs).2⟩) near
      (fun t t0 t1 => ?_) (pairs_err F P S ha hb hc hd) m1 m2 m3)
    · have : 2 * (4344 / 2 ^ 53 * (B ^ 2 / |a - 3 * b + 3 * c - d|)) + (B / 2 ^ 47 + 1 / 2 ^ 1070) ≤
          16384 / 2 ^ 53 * (B ^ 2 / |a - 3 * b + 3 * c - d|) := by linarith
      exact_mod_cast this
    · have mem : ∀ u : ℝ, (u = 0 ∨ u = 1 ∨ ((∃ s ∈ Flt.extremizers F P S a b c d, (s : ℝ) = u) ∧ 0 < u ∧ u < 1)) →
          ∃ s ∈ cubicPairs F P S a b c d, (s.1 : ℝ) = u := by
        rintro u (rfl | rfl | ⟨⟨s, hs, rfl⟩, -⟩)
        · exact ⟨(0, _), List.mem_map.2 ⟨0, by simp, rfl⟩, by simp⟩
        · exact ⟨(1, _), List.mem_map.2 ⟨1, List.mem_cons_of_mem _ (one_mem_flt_extremizers F P S a b c d), rfl⟩, by simp⟩
        · exact ⟨(s, _), List.mem_map.2 ⟨s, List.mem_cons_of_mem _ hs, rfl⟩, rfl⟩
      obtain ⟨⟨u, hu, h1⟩, v, hv, h2⟩ := cubic_crit (a := (a : ℝ)) (N := N) (S := T) (D := (denomOf F a b c d : ℚ)) crit t0 t1
      obtain ⟨p, hp, rfl⟩ := mem u hu
      obtain ⟨q, hq, rfl⟩ := mem v hv
      exact ⟨⟨p, hp, h1⟩, q, hq, h2⟩
  · push Not at hcase
    have hlarge : 3 * B ≤ 16384 / 2 ^ 53 * (B ^ 2 / |a - 3 * b + 3 * c - d|) := by
      rw [mul_div_assoc', le_div_iff₀ hDpos]
      have : 3 * B * |a - 3 * b + 3 * c - d| ≤ 3 * B * (52 * B / 2 ^ 53) := by gcongr
      have q0 : 0 ≤ B ^ 2 := by positivity
      linarith
    have hpt' : B / 2 ^ 47 + 1 / 2 ^ 1070 ≤ B := by
      have : (65 : ℚ) * B / 2 ^ 53 ≤ B := by linarith
      linarith
    obtain ⟨⟨u, u0, u1, k1⟩, v, v0, v1, k2⟩ := axis_touch F P S ha hb hc hd
    have hptR : ((B / 2 ^ 47 + 1 / 2 ^ 1070 : ℚ) : ℝ) ≤ B := by exact_mod_cast hpt'
    have hlR : (3 * B : ℝ) ≤ ((16384 / 2 ^ 53 * (B ^ 2 / |a - 3 * b + 3 * c - d|) : ℚ) : ℝ) := by exact_mod_cast hlarge
    have hBR : (0 : ℝ) ≤ B := by exact_mod_cast hB0
    have all : ∀ t : ℝ, 0 ≤ t → t ≤ 1 → |Seg.cubicAt (a : ℝ) b c d t| ≤ B := by
      intro t t0 t1
      have aR := abs_le.1 (show |(a : ℝ)| ≤ B by exact_mod_cast ha)
      have bR := abs_le.1 (show |(b : ℝ)| ≤ B by exact_mod_cast hb)
      have cR := abs_le.1 (show |(c : ℝ)| ≤ B by exact_mod_cast hc)
      have dR := abs_le.1 (show |(d : ℝ)| ≤ B by exact_mod_cast hd)
      have n0 : 0 ≤ 1 - t := by linarith
      have w0 : 0 ≤ (1 - t) ^ 3 := by positivity
      have w1 : 0 ≤ 3 * ((1 - t) ^ 2 * t) := by positivity
      have w2 : 0 ≤ 3 * ((1 - t) * t ^ 2) := by positivity
      have w3 : 0 ≤ t ^ 3 := by positivity
      have ee : ∀ z, Seg.cubicAt (a : ℝ) b c d t - z = (1 - t) ^ 3 * (a - z) + 3 * ((1 - t) ^ 2 * t) * (b - z) +
        3 * ((1 - t) * t ^ 2) * (c - z) + t ^ 3 * (d - z) := by intro z; simp only [Seg.cubicAt]; ring
      rw [abs_le]
      constructor
      · rw [← sub_nonneg, ee]
        have := mul_nonneg w0 (sub_nonneg.2 aR.1)
        have := mul_nonneg w1 (sub_nonneg.2 bR.1)
        have := mul_nonneg w2 (sub_nonneg.2 cR.1)
        have := mul_nonneg w3 (sub_nonneg.2 dR.1)
        linarith
      · rw [← sub_nonpos, ee]
        have := mul_nonneg w0 (sub_nonneg.2 aR.2)
        have := mul_nonneg w1 (sub_nonneg.2 bR.2)
        have := mul_nonneg w2 (sub_nonneg.2 cR.2)
        have := mul_nonneg w3 (sub_nonneg.2 dR.2)
        linarith
    refine ⟨fun t t0 t1 => ?_, ⟨u, u0, u1, k1.trans (by linarith)⟩, v, v0, v1, k2.trans (by linarith)⟩
    have a1 := abs_le.1 (all t t0 t1)
    have a2 := abs_le.1 (all u u0 u1)
    have a3 := abs_le.1 (all v v0 v1)
    have k1' := abs_le.1 k1
    have k2' := abs_le.1 k2
    constructor <;> linarith

end

/-- The box of a cubic curve computed with floats is off by at most `e` along one axis with the coordinates `a`, `b`, `c`, `d`, of size at
most `B`: the third difference is at least 3e-12, or the inner coordinates lie between the outer ones. -/
def CubicTol (B a b c d e : ℚ) : Prop :=
  (3 / 10 ^ 12 ≤ |a - 3 * b + 3 * c - d| ∧ e = B ^ 2 / (2 ^ 39 * |a - 3 * b + 3 * c - d|)) ∨
  ((min a d ≤ b ∧ b ≤ max a d) ∧ (min a d ≤ c ∧ c ≤ max a d) ∧ e = B / 2 ^ 47 + 1 / 2 ^ 1070)

theorem axis_tol (F : FloatRounding) (P : FloatPow) (S : FloatSqrt) {B a b c d e : ℚ} (ha : |a| ≤ B) (hb : |b| ≤ B) (hc : |c| ≤ B)
    (hd : |d| ≤ B) (h : CubicTol B a b c d e) :
    RangeUpTo (e : ℝ) (fun t => Seg.cubicAt (a : ℝ) b c d t) ((Flt.realMinMax F P S a b c d).1 : ℚ)
      ((Flt.realMinMax F P S a b c d).2 : ℚ) := by
  rcases h with ⟨h, rfl⟩ | ⟨h1, h2, rfl⟩
  · exact axis_big F P S ha hb hc hd h
  · exact axis_inner F P S ha hb hc hd h1 h2

/-! ### the boxes of segments -/

/-- both coordinates are at most `B` in size -/
def SizeAtMost (B : ℚ) (p : Pt ℚ) : Prop := |p.x| ≤ B ∧ |p.y| ≤ B

/-- **C141**, lines: the box holds all points of the line and each side is touched, exactly; nothing is rounded. -/
theorem C141_line (F : FloatRounding) (P : FloatPow) (S : FloatSqrt) (a b : Pt ℚ) (r sm : Bool) :
    ∀ k ∈ [Kind.line, Kind.close], ∃ x, Flt.bbox F P S ⟨k, some a, some b, r, sm⟩ = .ok x ∧
      TightBox (between (real a) (real b)) x.xmin x.ymin x.xmax x.ymax := by
  intro k hk
  refine ⟨⟨min a.x b.x, min a.y b.y, max a.x b.x, max a.y b.y⟩, ?_, ?_⟩
  · simp only [List.mem_cons, List.not_mem_nil, or_false] at hk
    rcases hk with rfl | rfl <;> rfl
  · obtain ⟨x, e, h⟩ := C60_box (real a) (real b)
    have : x = ⟨min a.x b.x, min a.y b.y, max a.x b.x, max a.y b.y⟩ := by
      have e' : Seg.bboxPoints [real a, real b] = .ok ⟨min (a.x : ℝ) b.x, min (a.y : ℝ) b.y, max (a.x : ℝ) b.x, max (a.y : ℝ) b.y⟩ := rfl
      rw [e] at e'
      cases e'
      push_cast
      rfl
    rw [this] at h
    push_cast at h ⊢
    exact h

/-- **C141**, quadratic curves: for every rounding within the error of doubles, the box holds all points of the curve and each side is
touched, up to one part in 2^46 of the largest coordinate. -/
theorem C141_quadratic (F : FloatRounding) (P : FloatPow) (S : FloatSqrt) {B : ℚ} {a b c : Pt ℚ} (r sm : Bool) (ha : SizeAtMost B a)
    (hb : SizeAtMost B b) (hc : SizeAtMost B c) : ∃ x, Flt.bbox F P S ⟨.quad (some b), some a, some c, r, sm⟩ = .ok x ∧
      BoxUpTo (B / 2 ^ 46 + 1 / 2 ^ 1068) (B / 2 ^ 46 + 1 / 2 ^ 1068) (bezier2 (real a) (real b) (real c)) x := by
  refine ⟨_, rfl, ?_⟩
  have ex : (fun t => (bezier2 (real a) (real b) (real c) t).x) = fun t => Seg.quadAt (a.x : ℝ) b.x c.x t := by
    funext t; simp only [bezier2, between, real, Seg.quadAt]; ring
  have ey : (fun t => (bezier2 (real a) (real b) (real c) t).y) = fun t => Seg.quadAt (a.y : ℝ) b.y c.y t := by
    funext t; simp only [bezier2, between, real, Seg.quadAt]; ring
  constructor
  · rw [ex]; exact axis_quad F P ha.1 hb.1 hc.1
  · rw [ey]; exact axis_quad F P ha.2 hb.2 hc.2

/-- **C141**, all cubic curves: each side of the box is touched, up to one part in 2^47 of the largest coordinate, so the box is never
too large. -/
theorem C141_touched_partial (F : FloatRounding) (P : FloatPow) (S : FloatSqrt) {B : ℚ} {a b c d : Pt ℚ} (r sm : Bool)
    (ha : SizeAtMost B a) (hb : SizeAtMost B b) (hc : SizeAtMost B c) (hd : SizeAtMost B d) :
    ∃ x, Flt.bbox F P S ⟨.cubic (some b) (some c), some a, some d, r, sm⟩ = .ok x ∧
      ∀ e : ℝ, e = ((B / 2 ^ 47 + 1 / 2 ^ 1070 : ℚ) : ℝ) →
      (∃ t, 0 ≤ t ∧ t ≤ 1 ∧ |(bezier3 (real a) (real b) (real c) (real d) t).x - x.xmin| ≤ e) ∧
      (∃ t, 0 ≤ t ∧ t ≤ 1 ∧ |(bezier3 (real a) (real b) (real c) (real d) t).x - x.xmax| ≤ e) ∧
      (∃ t, 0 ≤ t ∧ t ≤ 1 ∧ |(bezier3 (real a) (real b) (real c) (real d) t).y - x.ymin| ≤ e) ∧
      ∃ t, 0 ≤ t ∧ t ≤ 1 ∧ |(bezier3 (real a) (real b) (real c) (real d) t).y - x.ymax| ≤ e := by
  refine ⟨_, rfl, ?_⟩
  rintro e rfl
  have ex : ∀ t, (bezier3 (real a) (real b) (real c) (real d) t).x = Seg.cubicAt (a.x : ℝ) b.x c.x d.x t := by
    intro t; simp only [bezier3, bezier2, between, real, Seg.cubicAt]; ring
  have ey : ∀ t, (bezier3 (real a) (real b) (real c) (real d) t).y = Seg.cubicAt (a.y : ℝ) b.y c.y d.y t := by
    intro t; simp only [bezier3, bezier2, between, real, Seg.cubicAt]; ring
  simp only [ex, ey]
  obtain ⟨h1, h2⟩ := axis_touch F P S ha.1 hb.1 hc.1 hd.1
  obtain ⟨h3, h4⟩ := axis_touch F P S ha.2 hb.2 hc.2 hd.2
  exact ⟨h1, h2, h3, h4⟩

/-- **C141**, cubic curves with a third difference `D` of at least 3e-12, or inner control points between the end points, along each
axis: for every rounding within the error of doubles, the box holds all points of the curve and each side is touched, up to one part in
2^47 of the largest coordinate `B`, or `B² / (2^39 |D|)`. Missing: the other curves, for which it is false (`C59_wrong`), and a bound
without `D`, which is false (`C141_cubic_wrong`). -/
theorem C141_cubic_partial (F : FloatRounding) (P : FloatPow) (S : FloatSqrt) {B ex ey : ℚ} {a b c d : Pt ℚ} (r sm : Bool)
    (ha : SizeAtMost B a) (hb : SizeAtMost B b) (hc : SizeAtMost B c) (hd : SizeAtMost B d) (hx : CubicTol B a.x b.x c.x d.x ex)
    (hy : CubicTol B a.y b.y c.y d.y ey) :
    ∃ x, Flt.bbox F P S ⟨.cubic (some b) (some c), some a, some d, r, sm⟩ = .ok x ∧
      BoxUpTo ex ey (bezier3 (real a) (real b) (real c) (real d)) x := by
  refine ⟨_, rfl, ?_⟩
  have ex : (fun t => (bezier3 (real a) (real b) (real c) (real d) t).x) = fun t => Seg.cubicAt (a.x : ℝ) b.x c.x d.x t := by
    funext t; simp only [bezier3, bezier2, between, real, Seg.cubicAt]; ring
  have ey : (fun t => (bezier3 (real a) (real b) (real c) (real d) t).y) = fun t => Seg.cubicAt (a.y : ℝ) b.y c.y d.y t := by
    funext t; simp only [bezier3, bezier2, between, real, Seg.cubicAt]; ring
  constructor
  · rw [ex]; exact axis_tol F P S ha.1 hb.1 hc.1 hd.1 hx
  · rw [ey]; exact axis_tol F P S ha.2 hb.2 hc.2 hd.2 hy

/-- a curve of the size of a page that meets the hypotheses: its box is right up to 1e-8 -/
example : ∃ ex ey, CubicTol 1000 0 1000 0 800 ex ∧ CubicTol 1000 0 100 200 300 ey ∧ ex ≤ 1 / 10 ^ 8 ∧ ey ≤ 1 / 10 ^ 8 := by
  refine ⟨1000 ^ 2 / (2 ^ 39 * |0 - 3 * 1000 + 3 * 0 - 800|), 1000 / 2 ^ 47 + 1 / 2 ^ 1070, Or.inl ⟨by norm_num, rfl⟩,
    Or.inr ⟨by norm_num, by norm_num, rfl⟩, by norm_num, ?_⟩
  have : (1 : ℚ) / 2 ^ 1070 ≤ 1 / 2 ^ 100 := by
    apply one_div_le_one_div_of_le (by positivity)
    exact pow_le_pow_right₀ (by norm_num) (by norm_num)
  linarith

/-- a root that is exact for all squares of whole numbers is as assumed in `FloatSqrt` -/
theorem sqrt_exists : ∃ S : FloatSqrt, ∀ n : ℕ, S.sqrt (n ^ 2) = n := by
  have near : ∀ x : ℚ, 0 ≤ x → ∃ s : ℚ, 0 ≤ s ∧ |s ^ 2 - x| ≤ x / 2 ^ 51 ∧ ∀ n : ℕ, x = n ^ 2 → s = n := by
    intro x hx
    by_cases hn : ∃ n : ℕ, x = n ^ 2
    · obtain ⟨n, rfl⟩ := hn
      refine ⟨n, by positivity, by rw [sub_self, abs_zero]; positivity, fun m hm => ?_⟩
      exact (pow_left_inj₀ (by positivity) (by positivity) (by norm_num)).1 hm
    · have hpos : 0 < x := by
        refine lt_of_le_of_ne hx fun h => hn ⟨0, by rw [← h]; simp⟩
      obtain ⟨s, s1, s2⟩ := exists_rat_btwn (show Real.sqrt x < Real.sqrt (x + x / 2 ^ 51) from
        Real.sqrt_lt_sqrt (by exact_mod_cast hx) (by
          have : (0 : ℝ) < x := by exact_mod_cast hpos
          linarith))
      have hs0 : (0 : ℝ) ≤ s := (Real.sqrt_nonneg _).trans s1.le
      have u1 : (x : ℝ) < s ^ 2 := (Real.sqrt_lt' (lt_of_le_of_lt (Real.sqrt_nonneg _) s1)).1 s1
      have u2 : (s : ℝ) ^ 2 < x + x / 2 ^ 51 := by
        have := Real.lt_sqrt hs0 |>.1 s2
        exact this
      have v1 : x < s ^ 2 := by exact_mod_cast u1
      have v2 : s ^ 2 < x + x / 2 ^ 51 := by exact_mod_cast u2
      refine ⟨s, by exact_mod_cast hs0, ?_, fun n h => absurd ⟨n, h⟩ hn⟩
      rw [abs_of_nonneg (by linarith)]
      linarith
  classical
  refine ⟨⟨fun x => if h : 0 ≤ x then (near x h).choose else 0, fun x => ?_, fun x h => ?_⟩, fun n => ?_⟩
  · by_cases h : 0 ≤ x
    · simp only [dif_pos h]; exact (near x h).choose_spec.1
    · simp only [dif_neg h]; exact le_rfl
  · simp only [dif_pos h]; exact (near x h).choose_spec.2.1
  · have h : (0 : ℚ) ≤ n ^ 2 := by positivity
    simp only [dif_pos h]
    exact (near _ h).choose_spec.2.2 n rfl

theorem wrong_values (S : FloatSqrt) (h : S.sqrt (2 ^ 32) = 2 ^ 16) :
    (Flt.realMinMax doubles doublePow S 0 (2 ^ 16) (2 ^ 16) (-1 / 2 ^ 39)).2 = 0 := by
  have e1 : denomOf doubles 0 (2 ^ 16) (2 ^ 16) (-1 / 2 ^ 39) = 1 / 2 ^ 39 := by decide +kernel
  have e2 : deltaOf doubles doublePow 0 (2 ^ 16) (2 ^ 16) (-1 / 2 ^ 39) = 2 ^ 32 := by decide +kernel
  have e3 : tauOf doubles 0 (2 ^ 16) (2 ^ 16) = -2 ^ 16 := by decide +kernel
  have e4 : |(1 : ℚ) / 2 ^ 39| ≥ doubles.fl (1 / 10 ^ 12) := by decide +kernel
  have r1 : doubles.fl (doubles.fl (-2 ^ 16 + 2 ^ 16) / (1 / 2 ^ 39)) = 0 := by decide +kernel
  have r2 : doubles.fl (doubles.fl (-2 ^ 16 - 2 ^ 16) / (1 / 2 ^ 39)) = -2 ^ 56 := by decide +kernel
  simp only [Flt.realMinMax, Flt.extremizers]
  rw [e1, e2, e3, if_pos e4, if_pos (by norm_num), h, r1, r2, if_neg (by norm_num), if_neg (by norm_num)]
  decide +kernel

/-- With doubles, and a root that is exact for 2^32, the box of the curve from (0, 0) to (0, -2^-39) with the control points (0, 65536)
and (0, 65536) ends at 0, but the curve goes up to more than 49151; its third difference is more than 1e-12. -/
theorem C141_cubic_wrong : ∃ S : FloatSqrt, ∃ (a b c d : Pt ℚ) (x : Seg.BBox ℚ), 1 / 10 ^ 12 < |a.y - 3 * b.y + 3 * c.y - d.y| ∧
    Flt.bbox doubles doublePow S ⟨.cubic (some b) (some c), some a, some d, false, false⟩ = .ok x ∧ x.ymax = 0 ∧
    49151 < (bezier3 (real a) (real b) (real c) (real d) (1 / 2)).y := by
  obtain ⟨S, hS⟩ := sqrt_exists
  refine ⟨S, ⟨0, 0⟩, ⟨0, 2 ^ 16⟩, ⟨0, 2 ^ 16⟩, ⟨0, -1 / 2 ^ 39⟩, _, by norm_num, rfl, ?_, ?_⟩
  · refine wrong_values S ?_
    have := hS (2 ^ 16)
    norm_num at this ⊢
    exact this
  · simp only [bezier3, bezier2, between, real]
    norm_num

end Svgio.Props
