import Verif.Props.ColorFloat

/-!
C128: reading hue, saturation and lightness of a colour with floats, and writing them back.
-/

namespace Svgio.Props

open Spec

namespace ColorFloat

open Color.Flt

variable {F : FloatRounding} {tau : ℚ}

/-- a channel divided by 255 -/
def Grid (x : ℚ) : Prop := ∃ n : ℤ, 0 ≤ n ∧ n ≤ 255 ∧ x = n / 255

theorem Grid.range {x : ℚ} (h : Grid x) : 0 ≤ x ∧ x ≤ 1 := by
  obtain ⟨n, h0, h1, rfl⟩ := h
  have h0' : (0 : ℚ) ≤ n := by exact_mod_cast h0
  have h1' : (n : ℚ) ≤ 255 := by exact_mod_cast h1
  constructor
  · positivity
  · rw [div_le_one (by norm_num)]; exact h1'

theorem Grid.apart {x y : ℚ} (hx : Grid x) (hy : Grid y) (h : x < y) : x + 1 / 255 ≤ y := by
  obtain ⟨n, -, -, rfl⟩ := hx
  obtain ⟨m, -, -, rfl⟩ := hy
  have : (n : ℚ) < m := by
    have := (div_lt_div_iff_of_pos_right (by norm_num : (0 : ℚ) < 255)).1 h
    exact this
  have : n + 1 ≤ m := by exact_mod_cast this
  have : (n : ℚ) + 1 ≤ m := by exact_mod_cast this
  rw [← add_div]
  gcongr

theorem Grid.near {x : ℚ} (hx : Grid x) : -u ≤ F.fl x - x ∧ F.fl x - x ≤ u :=
  rnd8 (by rw [abs_le]; constructor <;> linarith [hx.range.1, hx.range.2])

theorem Grid.lt {x y : ℚ} (hx : Grid x) (hy : Grid y) (h : x < y) : F.fl x < F.fl y := by
  have u1 := u_small
  have a := hx.apart hy h
  have b := hx.near (F := F)
  have c := hy.near (F := F)
  linarith [b.2, c.1]

theorem Grid.inj {x y : ℚ} (hx : Grid x) (hy : Grid y) : F.fl x = F.fl y ↔ x = y := by
  constructor
  · intro e
    rcases lt_trichotomy x y with h | h | h
    · exact absurd e (hx.lt hy h).ne
    · exact h
    · exact absurd e (hy.lt hx h).ne'
  · intro e; rw [e]

theorem Grid.max {x y : ℚ} (hx : Grid x) (hy : Grid y) : Grid (Max.max x y) ∧ Max.max (F.fl x) (F.fl y) = F.fl (Max.max x y) := by
  rcases lt_trichotomy x y with h | h | h
  · rw [max_eq_right h.le, max_eq_right (hx.lt hy h).le]; exact ⟨hy, rfl⟩
  · rw [h, max_self, max_self]; exact ⟨hy, rfl⟩
  · rw [max_eq_left h.le, max_eq_left (hy.lt hx h).le]; exact ⟨hx, rfl⟩

theorem Grid.min {x y : ℚ} (hx : Grid x) (hy : Grid y) : Grid (Min.min x y) ∧ Min.min (F.fl x) (F.fl y) = F.fl (Min.min x y) := by
  rcases lt_trichotomy x y with h | h | h
  · rw [min_eq_left h.le, min_eq_left (hx.lt hy h).le]; exact ⟨hx, rfl⟩
  · rw [h, min_self, min_self]; exact ⟨hy, rfl⟩
  · rw [min_eq_right h.le, min_eq_right (hy.lt hx h).le]; exact ⟨hy, rfl⟩

/-- a quotient by something that is not too small -/
theorem quot_near {n N d D a b : ℚ} (hn : |n - N| ≤ a) (hd : |d - D| ≤ b) (hD : 1 / 255 ≤ D) (hN : |N| ≤ D) (hb : b ≤ 1 / 100000) :
    |n / d - N / D| ≤ 256 * (a + b) := by
  have hd' : 1 / 256 ≤ d := by rw [abs_le] at hd; linarith [hd.1]
  have dp : 0 < d := by linarith
  have Dp : 0 < D := by linarith
  have e : n / d - N / D = ((n - N) + N / D * (D - d)) / d := by field_simp; ring
  have q : |N / D| ≤ 1 := by rw [abs_div, abs_of_pos Dp, div_le_one Dp]; exact hN
  have m : |N / D * (D - d)| ≤ 1 * b := by
    rw [abs_mul, abs_sub_comm D d]
    exact mul_le_mul q hd (abs_nonneg _) (by norm_num)
  have t := abs_add_le (n - N) (N / D * (D - d))
  have a0 := (abs_nonneg _).trans hn
  have b0 := (abs_nonneg _).trans hd
  rw [e, abs_div, abs_of_pos dp, div_le_iff₀ dp]
  nlinarith

theorem part_near {M D X : ℚ} {m d x : ℚ} (hM : |m - M| ≤ u) (hX : |x - X| ≤ u) (hd : |d - D| ≤ 3 * u) (hD : 1 / 255 ≤ D) (hD1 : D ≤ 1)
    (h0 : 0 ≤ M - X) (h1 : M - X ≤ D) : |part F m d x - ((M - X) / 6 + D / 2) / D| ≤ 2100 * u ∧
      1 / 2 ≤ ((M - X) / 6 + D / 2) / D ∧ ((M - X) / 6 + D / 2) / D ≤ 2 / 3 := by
  have u0 := u_pos
  have u1 := u_small
  have Dp : 0 < D := by linarith
  have r1 : 1 / 2 ≤ ((M - X) / 6 + D / 2) / D := by rw [le_div_iff₀ Dp]; linarith
  have r2 : ((M - X) / 6 + D / 2) / D ≤ 2 / 3 := by rw [div_le_iff₀ Dp]; linarith
  refine ⟨?_, r1, r2⟩
  unfold part
  rw [abs_le] at hM hX
  have hd' := abs_le.1 hd
  have e1 := rnd8 (F := F) (x := m - x) (by rw [abs_le]; constructor <;> linarith)
  generalize F.fl (m - x) = p at *
  have e2 := rnd8 (F := F) (x := p / 6) (by rw [abs_le]; constructor <;> linarith)
  generalize F.fl (p / 6) = q at *
  have e3 := rnd8 (F := F) (x := d / 2) (by rw [abs_le]; constructor <;> linarith)
  generalize F.fl (d / 2) = w at *
  have e4 := rnd8 (F := F) (x := q + w) (by rw [abs_le]; constructor <;> linarith)
  generalize F.fl (q + w) = n at *
  have hn : |n - ((M - X) / 6 + D / 2)| ≤ 5 * u := by
    rw [abs_le]
    constructor <;> linarith [e1.1, e1.2, e2.1, e2.2, e3.1, e3.2, e4.1, e4.2]
  have k := quot_near hn hd hD (by rw [abs_of_nonneg (by linarith)]; linarith) (by linarith)
  generalize n / d = z at *
  generalize ((M - X) / 6 + D / 2) / D = Z at *
  rw [abs_le] at k
  have e5 := rnd8 (F := F) (x := z) (by rw [abs_le]; constructor <;> linarith [k.1, k.2])
  rw [abs_le]
  constructor <;> linarith [k.1, k.2, e5.1, e5.2]

/-- equal, or a turn apart at the ends of the interval from 0 to 1 -/
def SameTurn (e t H : ℚ) : Prop := |t - H| ≤ e ∨ (|t - (H + 1)| ≤ e ∧ H ≤ e) ∨ (|t - (H - 1)| ≤ e ∧ 1 - e ≤ H)

theorem wrap_near {h H : ℚ} (hh : |h - H| ≤ 4300 * u) (h0 : -1 / 6 ≤ H) (h1 : H ≤ 5 / 6) :
    SameTurn (4400 * u) (let k := if h < 0 then F.fl (h + 1) else h; if k > 1 then F.fl (k - 1) else k)
      (let k := if H < 0 then H + 1 else H; if k > 1 then k - 1 else k) ∧
    0 ≤ (let k := if H < 0 then H + 1 else H; if k > 1 then k - 1 else k) ∧
    (let k := if H < 0 then H + 1 else H; if k > 1 then k - 1 else k) ≤ 1 := by
  have u0 := u_pos
  have u1 := u_small
  rw [abs_le] at hh
  have E : (let k := if H < 0 then H + 1 else H; if k > 1 then k - 1 else k) = if H < 0 then H + 1 else H := by
    simp only
    refine if_neg ?_
    split <;> linarith
  rw [E]
  refine ⟨?_, by split <;> linarith, by split <;> linarith⟩
  have b := rnd8 (F := F) (x := h + 1) (by rw [abs_le]; constructor <;> linarith)
  by_cases c : h < 0
  · simp only [if_pos c]
    by_cases c2 : F.fl (h + 1) > 1
    · simp only [if_pos c2]
      have b2 := rnd8 (F := F) (x := F.fl (h + 1) - 1) (by rw [abs_le]; constructor <;> linarith [b.1, b.2])
      by_cases C : H < 0
      · rw [if_pos C]
        refine .inr (.inr ⟨?_, by linarith [b.2]⟩)
        rw [abs_le]; constructor <;> linarith [b.1, b.2, b2.1, b2.2]
      · rw [if_neg C]
        refine .inl ?_
        rw [abs_le]; constructor <;> linarith [b.1, b.2, b2.1, b2.2]
    · simp only [if_neg c2]
      by_cases C : H < 0
      · rw [if_pos C]
        refine .inl ?_
        rw [abs_le]; constructor <;> linarith [b.1, b.2]
      · rw [if_neg C]
        refine .inr (.inl ⟨?_, by linarith⟩)
        rw [abs_le]; constructor <;> linarith [b.1, b.2]
  · simp only [if_neg c]
    have c2 : ¬ h > 1 := by linarith
    simp only [if_neg c2]
    by_cases C : H < 0
    · rw [if_pos C]
      refine .inr (.inr ⟨?_, by linarith⟩)
      rw [abs_le]; constructor <;> linarith
    · rw [if_neg C]
      refine .inl ?_
      rw [abs_le]; constructor <;> linarith

theorem hue_near {R G B : ℚ} (hR : Grid R) (hG : Grid G) (hB : Grid B) :
    SameTurn (4400 * u) (Color.Flt.hueOf F (F.fl R) (F.fl G) (F.fl B)) (Color.hueOf R G B) := by
  have u0 := u_pos
  have u1 := u_small
  have x1 := hR.max (F := F) hG
  have x2 := x1.1.max (F := F) hB
  have n1 := hR.min (F := F) hG
  have n2 := n1.1.min (F := F) hB
  unfold Color.Flt.hueOf Color.hueOf
  simp only
  rw [x1.2, x2.2, n1.2, n2.2]
  have gM := x2.1
  have gN := n2.1
  have a1 := (min_le_left (Min.min R G) B).trans (min_le_left _ _)
  have a2 := (min_le_left (Min.min R G) B).trans (min_le_right _ _)
  have a3 := min_le_right (Min.min R G) B
  have b1 := (le_max_left R G).trans (le_max_left _ B)
  have b2 := (le_max_right R G).trans (le_max_left _ B)
  have b3 := le_max_right (Max.max R G) B
  generalize Max.max (Max.max R G) B = MX at *
  generalize Min.min (Min.min R G) B = MN at *
  by_cases c : MX - MN = 0
  · have : MX = MN := by linarith
    have d0 : F.fl (F.fl MX - F.fl MN) = 0 := by
      rw [this, sub_self]
      exact_mod_cast F.exact 0 (by norm_num)
    rw [if_pos d0, if_pos c]
    left
    rw [sub_self, abs_zero]
    linarith
  · have lt : MN < MX := lt_of_le_of_ne (by linarith) fun e => c (by rw [e, sub_self])
    have gap := gN.apart gM lt
    have eM := gM.near (F := F)
    have eN := gN.near (F := F)
    have rM := gM.range
    have rN := gN.range
    have eR := hR.near (F := F)
    have eG := hG.near (F := F)
    have eB := hB.near (F := F)
    have ed := rnd8 (F := F) (x := F.fl MX - F.fl MN) (by rw [abs_le]; constructor <;> linarith [eM.1, eM.2, eN.1, eN.2, rM.1, rM.2, rN.1, rN.2])
    have hd : |F.fl (F.fl MX - F.fl MN) - (MX - MN)| ≤ 3 * u := by
      rw [abs_le]; constructor <;> linarith [eM.1, eM.2, eN.1, eN.2, ed.1, ed.2]
    have d0 : F.fl (F.fl MX - F.fl MN) ≠ 0 := by
      intro e
      rw [e, abs_le] at hd
      linarith [hd.1]
    rw [if_neg d0, if_neg c]
    have hDb : 1 / 255 ≤ MX - MN := by linarith
    have hD1 : MX - MN ≤ 1 := by linarith [rM.2, rN.1]
    have hMa : |F.fl MX - MX| ≤ u := abs_le.2 eM
    have pr := part_near (F := F) hMa (abs_le.2 eR) hd hDb hD1 (by linarith) (by linarith)
    have pg := part_near (F := F) hMa (abs_le.2 eG) hd hDb hD1 (by linarith) (by linarith)
    have pb := part_near (F := F) hMa (abs_le.2 eB) hd hDb hD1 (by linarith) (by linarith)
    generalize part F (F.fl MX) (F.fl (F.fl MX - F.fl MN)) (F.fl R) = dr at *
    generalize part F (F.fl MX) (F.fl (F.fl MX - F.fl MN)) (F.fl G) = dg at *
    generalize part F (F.fl MX) (F.fl (F.fl MX - F.fl MN)) (F.fl B) = db at *
    generalize ((MX - R) / 6 + (MX - MN) / 2) / (MX - MN) = DR at *
    generalize ((MX - G) / 6 + (MX - MN) / 2) / (MX - MN) = DG at *
    generalize ((MX - B) / 6 + (MX - MN) / 2) / (MX - MN) = DB at *
    obtain ⟨pr, pr1, pr2⟩ := pr
    obtain ⟨pg, pg1, pg2⟩ := pg
    obtain ⟨pb, pb1, pb2⟩ := pb
    rw [abs_le] at pr pg pb
    refine (wrap_near (F := F) ?_ ?_ ?_).1
    · rw [if_congr (hR.inj (F := F) gM) rfl (if_congr (hG.inj (F := F) gM) rfl rfl)]
      have t := rnd8 (F := F) (x := 1 / 3) (by norm_num)
      have t2 := rnd8 (F := F) (x := 2 / 3) (by norm_num)
      by_cases c1 : R = MX
      · simp only [if_pos c1]
        have e := rnd8 (F := F) (x := db - dg) (by rw [abs_le]; constructor <;> linarith)
        rw [abs_le]; constructor <;> linarith [e.1, e.2]
      · simp only [if_neg c1]
        by_cases c2 : G = MX
        · simp only [if_pos c2]
          have e := rnd8 (F := F) (x := F.fl (1 / 3) + dr) (by rw [abs_le]; constructor <;> linarith [t.1, t.2])
          have e2 := rnd8 (F := F) (x := F.fl (F.fl (1 / 3) + dr) - db) (by rw [abs_le]; constructor <;> linarith [t.1, t.2, e.1, e.2])
          rw [abs_le]; constructor <;> linarith [e.1, e.2, e2.1, e2.2, t.1, t.2]
        · simp only [if_neg c2]
          have e := rnd8 (F := F) (x := F.fl (2 / 3) + dg) (by rw [abs_le]; constructor <;> linarith [t2.1, t2.2])
          have e2 := rnd8 (F := F) (x := F.fl (F.fl (2 / 3) + dg) - dr) (by rw [abs_le]; constructor <;> linarith [t2.1, t2.2, e.1, e.2])
          rw [abs_le]; constructor <;> linarith [e.1, e.2, e2.1, e2.2, t2.1, t2.2]
    · split_ifs <;> linarith
    · split_ifs <;> linarith

theorem sat_near {R G B : ℚ} (hR : Grid R) (hG : Grid G) (hB : Grid B) :
    |Color.Flt.satOf F (F.fl R) (F.fl G) (F.fl B) - Color.satOf R G B| ≤ 5000 * u := by
  have u0 := u_pos
  have u1 := u_small
  have x1 := hR.max (F := F) hG
  have x2 := x1.1.max (F := F) hB
  have n1 := hR.min (F := F) hG
  have n2 := n1.1.min (F := F) hB
  unfold Color.Flt.satOf Color.satOf
  simp only
  rw [x1.2, x2.2, n1.2, n2.2]
  have gM := x2.1
  have gN := n2.1
  have a1 := (min_le_left (Min.min R G) B).trans (min_le_left _ _)
  have b1 := (le_max_left R G).trans (le_max_left _ B)
  generalize Max.max (Max.max R G) B = MX at *
  generalize Min.min (Min.min R G) B = MN at *
  rw [if_congr (gM.inj (F := F) gN) rfl rfl]
  by_cases c : MX = MN
  · rw [if_pos c, if_pos c, sub_self, abs_zero]
    linarith
  · rw [if_neg c, if_neg c]
    have lt : MN < MX := lt_of_le_of_ne (by linarith) (Ne.symm c)
    have gap := gN.apart gM lt
    have eM := gM.near (F := F)
    have eN := gN.near (F := F)
    have rM := gM.range
    have rN := gN.range
    have ed := rnd8 (F := F) (x := F.fl MX - F.fl MN) (by rw [abs_le]; constructor <;> linarith [eM.1, eM.2, eN.1, eN.2])
    have es := rnd8 (F := F) (x := F.fl MX + F.fl MN) (by rw [abs_le]; constructor <;> linarith [eM.1, eM.2, eN.1, eN.2])
    have e2 := rnd8 (F := F) (x := 2 - F.fl MX) (by rw [abs_le]; constructor <;> linarith [eM.1, eM.2, eN.1, eN.2])
    have e3 := rnd8 (F := F) (x := F.fl (2 - F.fl MX) - F.fl MN) (by
      rw [abs_le]; constructor <;> linarith [eM.1, eM.2, eN.1, eN.2, e2.1, e2.2])
    have hd : |F.fl (F.fl MX - F.fl MN) - (MX - MN)| ≤ 3 * u := by
      rw [abs_le]; constructor <;> linarith [eM.1, eM.2, eN.1, eN.2, ed.1, ed.2]
    have hs : |F.fl (F.fl MX + F.fl MN) - (MX + MN)| ≤ 3 * u := by
      rw [abs_le]; constructor <;> linarith [eM.1, eM.2, eN.1, eN.2, es.1, es.2]
    have ht : |F.fl (F.fl (2 - F.fl MX) - F.fl MN) - (2 - MX - MN)| ≤ 4 * u := by
      rw [abs_le]; constructor <;> linarith [eM.1, eM.2, eN.1, eN.2, e2.1, e2.2, e3.1, e3.2]
    generalize F.fl (F.fl MX - F.fl MN) = d at *
    generalize F.fl (F.fl MX + F.fl MN) = q1 at *
    generalize F.fl (F.fl (2 - F.fl MX) - F.fl MN) = q2 at *
    have fin : ∀ q Q, |q - Q| ≤ 12 * u → 1 / 255 ≤ Q → MX - MN ≤ Q → |F.fl (d / q) - (MX - MN) / Q| ≤ 5000 * u := by
      intro q Q hq hQ hle
      have k := quot_near hd hq hQ (by rw [abs_of_nonneg (by linarith)]; exact hle) (by linarith)
      have Qp : 0 < Q := by linarith
      have r1 : 0 ≤ (MX - MN) / Q := div_nonneg (by linarith) Qp.le
      have r2 : (MX - MN) / Q ≤ 1 := by rw [div_le_one Qp]; exact hle
      rw [abs_le] at k
      have e := rnd8 (F := F) (x := d / q) (by rw [abs_le]; constructor <;> linarith [k.1, k.2])
      rw [abs_le]
      constructor <;> linarith [k.1, k.2, e.1, e.2]
    rw [abs_le] at hs ht
    by_cases c1 : MX + MN < 1
    · rw [if_pos c1]
      have hQ : 1 / 255 ≤ MX + MN := by linarith [rN.1]
      by_cases c2 : q1 < 1
      · rw [if_pos c2]
        exact fin _ _ (by rw [abs_le]; constructor <;> linarith) hQ (by linarith [rN.1])
      · rw [if_neg c2]
        exact fin _ _ (by rw [abs_le]; constructor <;> linarith) hQ (by linarith [rN.1])
    · rw [if_neg c1]
      have hQ : 1 / 255 ≤ 2 - MX - MN := by linarith [rM.2]
      by_cases c2 : q1 < 1
      · rw [if_pos c2]
        exact fin _ _ (by rw [abs_le]; constructor <;> linarith) hQ (by linarith [rM.2])
      · rw [if_neg c2]
        exact fin _ _ (by rw [abs_le]; constructor <;> linarith) hQ (by linarith [rM.2])

theorem light_near {R G B : ℚ} (hR : Grid R) (hG : Grid G) (hB : Grid B) :
    |Color.Flt.lightOf F (F.fl R) (F.fl G) (F.fl B) - Color.lightOf R G B| ≤ 3 * u := by
  have u0 := u_pos
  have u1 := u_small
  have x1 := hR.max (F := F) hG
  have x2 := x1.1.max (F := F) hB
  have n1 := hR.min (F := F) hG
  have n2 := n1.1.min (F := F) hB
  unfold Color.Flt.lightOf Color.lightOf
  simp only
  rw [x1.2, x2.2, n1.2, n2.2]
  have gM := x2.1
  have gN := n2.1
  generalize Max.max (Max.max R G) B = MX at *
  generalize Min.min (Min.min R G) B = MN at *
  have eM := gM.near (F := F)
  have eN := gN.near (F := F)
  have rM := gM.range
  have rN := gN.range
  have es := rnd8 (F := F) (x := F.fl MX + F.fl MN) (by
    rw [abs_le]; constructor <;> linarith [eM.1, eM.2, eN.1, eN.2, rM.1, rM.2, rN.1, rN.2])
  have e2 := rnd8 (F := F) (x := F.fl (F.fl MX + F.fl MN) / 2) (by
    rw [abs_le]; constructor <;> linarith [eM.1, eM.2, eN.1, eN.2, es.1, es.2, rM.1, rM.2, rN.1, rN.2])
  rw [abs_le]
  constructor <;> linarith [eM.1, eM.2, eN.1, eN.2, es.1, es.2, e2.1, e2.2]

/-- from turns to degrees -/
theorem degrees_near {x : ℚ} (ht : TauLike tau) (h : |x| ≤ 2) : |F.fl (F.fl (F.fl (tau * x) * 360) / tau) / 360 - x| ≤ 40 * u := by
  have u0 := u_pos
  have u1 := u_small
  obtain ⟨t0, t1⟩ := ht
  have tp : 0 < tau := by linarith
  have b1 : |tau * x| ≤ 14 := by
    rw [abs_mul, abs_of_pos tp]
    nlinarith [abs_nonneg x]
  have e1 := rnd (F := F) b1 (by norm_num)
  generalize hz : F.fl (tau * x) = z at *
  have b2 : |z * 360| ≤ 6000 := by rw [abs_le] at *; constructor <;> linarith
  have e2 := rnd (F := F) b2 (by norm_num)
  have c2 : |F.fl (z * 360) - tau * (x * 360)| ≤ 1500 * u := by
    rw [abs_le] at *; constructor <;> linarith
  generalize F.fl (z * 360) = w at *
  have c3 : |w / tau - x * 360| ≤ 300 * u := by
    rw [show w / tau - x * 360 = (w - tau * (x * 360)) / tau by field_simp, abs_div, abs_of_pos tp, div_le_iff₀ tp]
    nlinarith
  have b3 : |w / tau| ≤ 800 := by rw [abs_le] at *; constructor <;> linarith
  have e3 := rnd (F := F) b3 (by norm_num)
  rw [abs_le] at *
  constructor <;> linarith

theorem grid_frac (i : ℕ) (v : ℤ) : Grid (Color.frac (8 * i) v) := ⟨byte i v, byte_nonneg i v, byte_le i v, frac_eq i v⟩

theorem hueOf_range (v : ℤ) : 0 ≤ Color.hueTurns v ∧ Color.hueTurns v ≤ 1 := by
  obtain ⟨h, s, l, e, -, -, h0, h1, -⟩ := C11_getters_range v
  have : Color.hueTurns v * 360 = h := Option.some.inj e
  constructor <;> linarith

/-- with exact arithmetic the levels are the channels -/
theorem level_exact (v : ℤ) :
    let s := Color.satOf (Color.frac 24 v) (Color.frac 16 v) (Color.frac 8 v)
    let l := Color.lightOf (Color.frac 24 v) (Color.frac 16 v) (Color.frac 8 v)
    level (Color.hueTurns v) s l (1 / 3) = Color.frac 24 v ∧ level (Color.hueTurns v) s l 0 = Color.frac 16 v ∧
      level (Color.hueTurns v) s l (-1 / 3) = Color.frac 8 v := by
  simp only
  obtain ⟨h0, h1⟩ := hueOf_range v
  have f3 := frac_range 3 v
  have f2 := frac_range 2 v
  have f1 := frac_range 1 v
  norm_num only at f1 f2 f3
  by_cases hne : max (max (Color.frac 24 v) (Color.frac 16 v)) (Color.frac 8 v)
      = min (min (Color.frac 24 v) (Color.frac 16 v)) (Color.frac 8 v)
  · have hs : Color.satOf (Color.frac 24 v) (Color.frac 16 v) (Color.frac 8 v) = 0 := by
      unfold Color.satOf; exact if_pos hne
    rw [hs]
    have a1 := (min_le_left (min (Color.frac 24 v) (Color.frac 16 v)) (Color.frac 8 v)).trans (min_le_left _ _)
    have a2 := (min_le_left (min (Color.frac 24 v) (Color.frac 16 v)) (Color.frac 8 v)).trans (min_le_right _ _)
    have a3 := min_le_right (min (Color.frac 24 v) (Color.frac 16 v)) (Color.frac 8 v)
    have b1 := (le_max_left (Color.frac 24 v) (Color.frac 16 v)).trans (le_max_left _ (Color.frac 8 v))
    have b2 := (le_max_right (Color.frac 24 v) (Color.frac 16 v)).trans (le_max_left _ (Color.frac 8 v))
    have b3 := le_max_right (max (Color.frac 24 v) (Color.frac 16 v)) (Color.frac 8 v)
    unfold level Color.lightOf
    simp only [zero_mul, add_zero]
    refine ⟨?_, ?_, ?_⟩ <;> linarith
  · have k := hsl_round_trip f3 f2 f1 hne
    unfold hslFrac at k
    simp only [Prod.mk.injEq] at k
    have e : Color.hueOf (Color.frac 24 v) (Color.frac 16 v) (Color.frac 8 v) = Color.hueTurns v := rfl
    rw [e] at k
    generalize Color.satOf (Color.frac 24 v) (Color.frac 16 v) (Color.frac 8 v) = s at *
    generalize Color.lightOf (Color.frac 24 v) (Color.frac 16 v) (Color.frac 8 v) = l at *
    have v2 : (if l < 1 / 2 then l * (1 + s) else l + s - s * l) = l + s * min l (1 - l) := by
      split
      · rw [min_eq_left (by linarith)]; ring
      · rw [min_eq_right (by linarith)]; ring
    rw [v2, hue2rgb_wave (by linarith) (by linarith), hue2rgb_wave (by linarith) (by linarith), hue2rgb_wave (by linarith) (by linarith)] at k
    obtain ⟨k1, k2, k3⟩ := k
    rw [← k1, ← k2, ← k3]
    unfold level
    rw [show Color.hueTurns v + -1 / 3 = Color.hueTurns v - 1 / 3 by ring, add_zero]
    refine ⟨by ring, by ring, by ring⟩

theorem wave3_same {t H k e : ℚ} (hs : SameTurn e t H) (he : e ≤ 1 / 100) (h0 : 0 ≤ H) (h1 : H ≤ 1) (k0 : -1 / 3 ≤ k) (k1 : k ≤ 1 / 3) :
    |wave3 (t + k) - wave3 (H + k)| ≤ 18 * e := by
  rcases hs with h | ⟨h, hH⟩ | ⟨h, hH⟩
  · have := wave3_lip (t + k) (H + k)
    rw [add_sub_add_right_eq_sub] at this
    linarith
  · have := wave3_lip (t + k) (H + k + 1)
    rw [wave3_turn (by linarith) (by linarith), show t + k - (H + k + 1) = t - (H + 1) by ring] at this
    linarith
  · have := wave3_lip (t + k) (H + k - 1)
    have p := wave3_turn (x := H + k - 1) (by linarith) (by linarith)
    rw [sub_add_cancel] at p
    rw [← p, show t + k - (H + k - 1) = t - (H - 1) by ring] at this
    linarith

theorem clamp_below {z : ℚ} {n : ℤ} (h0 : 0 ≤ n) (h1 : n ≤ 255) (h : |z - n| ≤ 1 / 2) : clamp255 z = n ∨ clamp255 z = n - 1 := by
  rw [abs_le] at h
  have f : n - 1 ≤ ⌊z⌋ := by rw [Int.le_floor]; push_cast; linarith [h.1]
  have g : ⌊z⌋ < n + 1 := by rw [Int.floor_lt]; push_cast; linarith [h.2]
  unfold clamp255
  omega

end ColorFloat

open Color.Flt ColorFloat

/-- **C128**, reading and writing back with floats: for every colour, the hue that was read, as a number of turns, with the saturation and
lightness that were read, gives an opaque colour with the same channels, except that each may be one less. Missing for the whole claim: the
channels may be one less, `C128_back_wrong`, and the hue must be divided by 360 first, `C11_write_back_fails`. -/
theorem C128_back_partial (F : FloatRounding) {tau : ℚ} (ht : TauLike tau) (v : ℤ) {t : ℚ} :
    ∃ h s l r g b, Color.Flt.hue F tau (some v) = some h ∧ Color.Flt.saturation F (some v) = some s ∧
      Color.Flt.lightness F (some v) = some l ∧ Color.red (some v) = some r ∧ Color.green (some v) = some g ∧
      Color.blue (some v) = some b ∧ (|t - h / 360| ≤ 1 / 2 ^ 40 → ∃ w, Color.Flt.setHsl F t s l = some w ∧
      (Color.red (some w) = some r ∨ Color.red (some w) = some (r - 1)) ∧
      (Color.green (some w) = some g ∨ Color.green (some w) = some (g - 1)) ∧
      (Color.blue (some w) = some b ∨ Color.blue (some w) = some (b - 1)) ∧ Color.alpha (some w) = some 255) := by
  have u0 := u_pos
  have u1 := u_small
  have g' := fun ch => get_eq_byte ch v
  refine ⟨_, _, _, _, _, _, rfl, rfl, rfl, g' .red, g' .green, g' .blue, ?_⟩
  intro htt
  refine ⟨_, rfl, ?_⟩
  simp only [Chan.pos]
  have G3 := grid_frac 3 v
  have G2 := grid_frac 2 v
  have G1 := grid_frac 1 v
  norm_num only at G1 G2 G3
  have a := hue_near (F := F) G3 G2 G1
  have b := sat_near (F := F) G3 G2 G1
  have c := light_near (F := F) G3 G2 G1
  obtain ⟨e1, e2, e3⟩ := level_exact v
  obtain ⟨h0, h1⟩ := hueOf_range v
  have eh : Color.hueOf (Color.frac 24 v) (Color.frac 16 v) (Color.frac 8 v) = Color.hueTurns v := rfl
  rw [eh] at a
  obtain ⟨hh, ss, ll, q1, q2, q3, -, -, s0, s1, l0, l1⟩ := C11_getters_range v
  have q2' : Color.satOf (Color.frac 24 v) (Color.frac 16 v) (Color.frac 8 v) = ss := Option.some.inj q2
  have q3' : Color.lightOf (Color.frac 24 v) (Color.frac 16 v) (Color.frac 8 v) = ll := Option.some.inj q3
  rw [q2'] at b e1 e2 e3
  rw [q3'] at c e1 e2 e3
  have f24 : F.fl (Color.frac 24 v) = Color.Flt.frac F 24 v := rfl
  have f16 : F.fl (Color.frac 16 v) = Color.Flt.frac F 16 v := rfl
  have f8 : F.fl (Color.frac 8 v) = Color.Flt.frac F 8 v := rfl
  rw [f24, f16, f8] at a b c
  generalize Color.Flt.satOf F (Color.Flt.frac F 24 v) (Color.Flt.frac F 16 v) (Color.Flt.frac F 8 v) = sf at *
  generalize Color.Flt.lightOf F (Color.Flt.frac F 24 v) (Color.Flt.frac F 16 v) (Color.Flt.frac F 8 v) = lf at *
  generalize Color.Flt.hueOf F (Color.Flt.frac F 24 v) (Color.Flt.frac F 16 v) (Color.Flt.frac F 8 v) = hf at *
  generalize Color.hueTurns v = H at *
  have hfb : |hf| ≤ 2 := by
    unfold SameTurn at a
    simp only [abs_le] at a ⊢
    rcases a with a | ⟨a, a'⟩ | ⟨a, a'⟩ <;> constructor <;> linarith
  have dn := degrees_near (F := F) ht hfb
  generalize F.fl (F.fl (F.fl (tau * hf) * 360) / tau) / 360 = df at *
  have p40 : (1 : ℚ) / 2 ^ 40 = 512 * u := by unfold u; norm_num
  have th : |t - hf| ≤ 560 * u := by
    rw [p40] at htt
    rw [abs_le] at *
    constructor <;> linarith
  have a2 : SameTurn (5000 * u) t H := by
    unfold SameTurn at *
    simp only [abs_le] at a th ⊢
    rcases a with a | ⟨a, a'⟩ | ⟨a, a'⟩
    · exact .inl ⟨by linarith, by linarith⟩
    · exact .inr (.inl ⟨⟨by linarith, by linarith⟩, by linarith⟩)
    · exact .inr (.inr ⟨⟨by linarith, by linarith⟩, by linarith⟩)
  have tr : -1 / 3 ≤ t ∧ t ≤ 4 / 3 := by
    unfold SameTurn at a2
    simp only [abs_le] at a2
    rcases a2 with a | ⟨a, a'⟩ | ⟨a, a'⟩ <;> constructor <;> linarith
  have ns : Near01 sf := by
    rw [abs_le] at b
    exact ⟨by linarith, by linarith⟩
  have nl : Near01 lf := by
    rw [abs_le] at c
    exact ⟨by linarith, by linarith⟩
  have Ns : Near01 ss := ⟨by linarith, by linarith⟩
  have Nl : Near01 ll := ⟨by linarith, by linarith⟩
  obtain ⟨r, g, bb, e, k1, k2, k3⟩ := hsl_near (F := F) 1 ns nl (h := t) (by linarith) (by linarith)
  have fin : ∀ k z, -1 / 3 ≤ k → k ≤ 1 / 3 → |z - 255 * level t sf lf k| ≤ 300000 * u → |z - 255 * level H ss ll k| ≤ 1 / 2 := by
    intro k z k0 k1 hz
    have l1 := level_lip (h := t) (s := sf) (h' := H) (k := k) Ns nl Nl
    have w := wave3_same a2 (by linarith) h0 h1 k0 k1
    have l2 : |level t sf lf k - level H ss ll k| ≤ 4000000 * u := by linarith
    rw [abs_le] at hz l2 ⊢
    constructor <;> linarith
  have k1 := fin _ _ (by norm_num) (by norm_num) k1
  have k2 := fin _ _ (by norm_num) (by norm_num) k2
  have k3 := fin _ _ (by norm_num) (by norm_num) k3
  rw [e1] at k1
  rw [e2] at k2
  rw [e3] at k3
  have d3 := frac_eq 3 v
  have d2 := frac_eq 2 v
  have d1 := frac_eq 1 v
  norm_num only at d1 d2 d3
  rw [d3, mul_div_cancel₀ _ (by norm_num)] at k1
  rw [d2, mul_div_cancel₀ _ (by norm_num)] at k2
  rw [d1, mul_div_cancel₀ _ (by norm_num)] at k3
  obtain ⟨c1, c2, c3, al, c4, c5⟩ := rgbToInt_get F r g bb 1
  rw [← e] at c1 c2 c3 c4
  rw [c1, c2, c3, c4]
  have last : al = 255 := by
    unfold Rounded at c5
    rw [show limit 0 1 1 * 255 = 255 by unfold limit; norm_num, abs_le] at c5
    have b0 : ((254 : ℤ) : ℚ) < al := by
      have : (1 : ℚ) / 2 ^ 40 < 1 / 4 := by norm_num
      push_cast; linarith [c5.1]
    have b1 : (al : ℚ) < ((256 : ℤ) : ℚ) := by
      have : (1 : ℚ) / 2 ^ 40 < 1 / 4 := by norm_num
      push_cast; linarith [c5.2]
    have b0 : 254 < al := by exact_mod_cast b0
    have b1 : al < 256 := by exact_mod_cast b1
    omega
  refine ⟨?_, ?_, ?_, by rw [last]⟩
  · rcases clamp_below (byte_nonneg 3 v) (byte_le 3 v) k1 with x | x <;> rw [x]
    · exact .inl rfl
    · exact .inr rfl
  · rcases clamp_below (byte_nonneg 2 v) (byte_le 2 v) k2 with x | x <;> rw [x]
    · exact .inl rfl
    · exact .inr rfl
  · rcases clamp_below (byte_nonneg 1 v) (byte_le 1 v) k3 with x | x <;> rw [x]
    · exact .inl rfl
    · exact .inr rfl

/-- the float `math.tau` -/
def doubleTau : ℚ := 884279719003555 / 140737488355328

/-- **C128**, a channel is lost: with the rounding of IEEE doubles, the hue, saturation and lightness of cyan, `#00ffff`, are 180, 1 and 0.5,
without any error, and writing half a turn with these back gives `#00feff`. -/
theorem C128_back_wrong : Color.Flt.hue doubles doubleTau (some 0x00FFFFFF) = some 180 ∧
    Color.Flt.saturation doubles (some 0x00FFFFFF) = some 1 ∧ Color.Flt.lightness doubles (some 0x00FFFFFF) = some (1 / 2) ∧
    Color.Flt.setHsl doubles (180 / 360) 1 (1 / 2) = some 0x00FEFFFF := by
  refine ⟨by decide +kernel, by decide +kernel, by decide +kernel, by decide +kernel⟩

/-- **C128**, so is a channel of the text `hsl(180,100%,50%)`: it is read as `#00feff`, although the level of green is 1 and there is no
fraction to cut. -/
theorem C128_cyan_wrong (pyInt : List Char → Option ℤ) :
    FunText "hsl".toList false true true "180".toList "100".toList "50".toList none "hsl(180,100%,50%)".toList ∧
    Color.Flt.parse doubles doubleTau pyInt (some "hsl(180,100%,50%)".toList) = .ok (some 0x00FEFFFF) ∧ hslLevel 180 1 (1 / 2) 8 = 1 := by
  have ht := funText_plain "hsl".toList false true true (v1 := "180".toList) (v2 := "100".toList) (v3 := "50".toList)
      (number_of_digits (by unfold Digits IsDigit; decide) (by decide)) (number_of_digits (by unfold Digits IsDigit; decide) (by decide))
      (number_of_digits (by unfold Digits IsDigit; decide) (by decide))
  refine ⟨ht, ?_, by decide +kernel⟩
  refine Eq.trans (ColorFloat.parse_hsl doubles doubleTau pyInt ht) ?_
  clear ht
  decide +kernel

/-- the hypotheses are met -/
example : TauLike doubleTau := by unfold TauLike doubleTau; norm_num

end Svgio.Props
