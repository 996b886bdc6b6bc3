import Verif.Model.FloatViewbox
import Verif.Props.Viewbox
import Verif.Props.FloatEnds
import Verif.Props.FloatError

/-! C153: the transform of a viewBox, computed with floats. -/

namespace Svgio.Props
open Spec Flt

/-- one direction of the exact computation -/
def axisExact (mid mx : Bool) (e es v vs s : ℚ) : ℚ :=
  let t := e - v * s
  let t := if mid then t + (es - vs * s) / 2 else t
  if mx then t + (es - vs * s) else t

/-- one direction of the computation with floats -/
def axisFloat (F : FloatRounding) (mid mx : Bool) (e es v vs s : ℚ) : ℚ :=
  let t := F.fl (e - F.fl (v * s))
  let t := if mid then F.fl (t + F.fl (F.fl (es - F.fl (vs * s)) / 2)) else t
  if mx then F.fl (t + F.fl (es - F.fl (vs * s))) else t

theorem scaled_near {fl : ℚ → ℚ} {η v s s' : ℚ} (h0 : 0 ≤ η) (hη : η ≤ 1 / 2 ^ 100) (hfl : ∀ x, |fl x - x| ≤ |x| / 2 ^ 53 + η)
    (hs : |s' - s| ≤ |s| / 2 ^ 53 + η) : |fl (v * s') - v * s| ≤ |v * s| * (3 / 2 ^ 53) + 2 * (|v| * η) + η := by
  have k : |v * s' - v * s| ≤ |v * s| / 2 ^ 53 + |v| * η := by
    rw [← mul_sub, abs_mul, abs_mul]
    calc |v| * |s' - s| ≤ |v| * (|s| / 2 ^ 53 + η) := by gcongr
      _ = _ := by ring
  have k2 := near_fl hfl k le_rfl
  refine k2.trans ?_
  have p0 := abs_nonneg (v * s)
  have q0 : 0 ≤ |v| * η := by positivity
  norm_num1 at *
  linarith

theorem near_diff {x x0 y y0 e f : ℚ} (h : |x - x0| ≤ e) (h' : |y - y0| ≤ f) : |x - y - (x0 - y0)| ≤ e + f := by
  rw [show x - y - (x0 - y0) = (x - x0) - (y - y0) by ring]
  exact (abs_sub _ _).trans (add_le_add h h')

theorem axis_err {F : FloatRounding} {η s s' : ℚ} (h0 : 0 ≤ η) (hη : η ≤ 1 / 2 ^ 100) (hfl : ∀ x, |F.fl x - x| ≤ |x| / 2 ^ 53 + η)
    (hs : |s' - s| ≤ |s| / 2 ^ 53 + η) (mid mx : Bool) (e es v vs : ℚ) :
    |axisFloat F mid mx e es v vs s' - axisExact mid mx e es v vs s| ≤
      (|e| + |es| + |v * s| + |vs * s|) / 2 ^ 48 + (|v| + |vs| + 1) * (16 * η) := by
  have p1 := scaled_near (v := v) h0 hη hfl hs
  have p2 := scaled_near (v := vs) h0 hη hfl hs
  have e0 := abs_nonneg e
  have es0 := abs_nonneg es
  have a0 := abs_nonneg (v * s)
  have b0 := abs_nonneg (vs * s)
  have c0 : 0 ≤ |v| * η := by positivity
  have d0 : 0 ≤ |vs| * η := by positivity
  have ex : (|v| + |vs| + 1) * (16 * η) = 16 * (|v| * η) + 16 * (|vs| * η) + 16 * η := by ring
  rw [ex]
  have t0 := near_fl hfl (near_diff (near_self e) p1) (abs_sub e (v * s))
  have t0 : |F.fl (e - F.fl (v * s')) - (e - v * s)| ≤ (|e| + |v * s|) * (6 / 2 ^ 53) + 3 * (|v| * η) + 3 * η := by
    refine t0.trans ?_
    norm_num1 at *
    linarith
  have r0 := near_fl hfl (near_diff (near_self es) p2) (abs_sub es (vs * s))
  have r0 : |F.fl (es - F.fl (vs * s')) - (es - vs * s)| ≤ (|es| + |vs * s|) * (6 / 2 ^ 53) + 3 * (|vs| * η) + 3 * η := by
    refine r0.trans ?_
    norm_num1 at *
    linarith
  have b1 := abs_sub e (v * s)
  have b2 := abs_sub es (vs * s)
  have h1 : |F.fl (F.fl (es - F.fl (vs * s')) / 2) - (es - vs * s) / 2| ≤ (|es| + |vs * s|) * (4 / 2 ^ 53) + 2 * (|vs| * η) + 3 * η := by
    have k : |F.fl (es - F.fl (vs * s')) / 2 - (es - vs * s) / 2| ≤ ((|es| + |vs * s|) * (6 / 2 ^ 53) + 3 * (|vs| * η) + 3 * η) / 2 := by
      rw [← sub_div, abs_div, abs_two]
      gcongr
    have kb : |(es - vs * s) / 2| ≤ (|es| + |vs * s|) / 2 := by
      rw [abs_div, abs_two]
      gcongr
    refine (near_fl hfl k kb).trans ?_
    norm_num1 at *
    linarith
  unfold axisFloat axisExact
  simp only
  generalize F.fl (F.fl (es - F.fl (vs * s')) / 2) = H at *
  generalize F.fl (es - F.fl (vs * s')) = R at *
  generalize F.fl (e - F.fl (v * s')) = T at *
  have m1 := near_fl hfl (near_add t0 h1) (show |(e - v * s) + (es - vs * s) / 2| ≤ |e| + |v * s| + (|es| + |vs * s|) by
    have := abs_add_le (e - v * s) ((es - vs * s) / 2)
    have hh : |(es - vs * s) / 2| ≤ (|es| + |vs * s|) / 2 := by
      rw [abs_div, abs_two]
      gcongr
    linarith)
  have m1 : |F.fl (T + H) - (e - v * s + (es - vs * s) / 2)| ≤ (|e| + |es| + |v * s| + |vs * s|) * (12 / 2 ^ 53) + 5 * (|v| * η) + 5 * (|vs| * η) + 8 * η := by
    refine m1.trans ?_
    norm_num1 at *
    linarith
  have m2 := near_fl hfl (near_add t0 r0) (show |(e - v * s) + (es - vs * s)| ≤ |e| + |v * s| + (|es| + |vs * s|) by
    have := abs_add_le (e - v * s) (es - vs * s)
    linarith)
  have m3 := near_fl hfl (near_add m1 r0) (show |(e - v * s + (es - vs * s) / 2) + (es - vs * s)| ≤ 2 * (|e| + |v * s| + (|es| + |vs * s|)) by
    have := abs_add_le (e - v * s) ((es - vs * s) / 2)
    have := abs_add_le (e - v * s + (es - vs * s) / 2) (es - vs * s)
    have hh : |(es - vs * s) / 2| ≤ (|es| + |vs * s|) / 2 := by
      rw [abs_div, abs_two]
      gcongr
    linarith)
  cases mid <;> cases mx <;> simp only [if_true, if_false, Bool.false_eq_true]
  · refine t0.trans ?_
    norm_num1 at *
    linarith
  · refine m2.trans ?_
    norm_num1 at *
    linarith
  · refine m1.trans ?_
    norm_num1 at *
    linarith
  · refine m3.trans ?_
    norm_num1 at *
    linarith

/-- the scales, from the two quotients -/
def scalePair (aspect : Option (List Char)) (a b : ℚ) : ℚ × ℚ :=
  if (Viewbox.aspectWords aspect).1 ≠ ['n', 'o', 'n', 'e'] ∧ (Viewbox.aspectWords aspect).2 = ['m', 'e', 'e', 't'] then (min a b, min a b)
  else if (Viewbox.aspectWords aspect).1 ≠ ['n', 'o', 'n', 'e'] ∧ (Viewbox.aspectWords aspect).2 = ['s', 'l', 'i', 'c', 'e'] then (max a b, max a b)
  else (a, b)

/-- the alignment word holds the given letters -/
def wordHas (aspect : Option (List Char)) (w : List Char) : Bool := Viewbox.contains w ((Viewbox.aspectWords aspect).1.flatMap Color.lowerChar)

theorem fit_exact (ex ey ew eh vx vy vw vh : ℚ) (hw : vw ≠ 0) (hh : vh ≠ 0) (aspect : Option (List Char)) :
    Viewbox.fit ex ey ew eh vx vy vw vh aspect =
      .ok ⟨axisExact (wordHas aspect ['x', 'm', 'i', 'd']) (wordHas aspect ['x', 'm', 'a', 'x']) ex ew vx vw (scalePair aspect (ew / vw) (eh / vh)).1,
        axisExact (wordHas aspect ['y', 'm', 'i', 'd']) (wordHas aspect ['y', 'm', 'a', 'x']) ey eh vy vh (scalePair aspect (ew / vw) (eh / vh)).2,
        (scalePair aspect (ew / vw) (eh / vh)).1, (scalePair aspect (ew / vw) (eh / vh)).2⟩ := by
  unfold Viewbox.fit
  rw [if_neg hw, if_neg hh]
  rfl

theorem fit_float (F : FloatRounding) (ex ey ew eh vx vy vw vh : ℚ) (hw : vw ≠ 0) (hh : vh ≠ 0) (aspect : Option (List Char)) :
    Flt.fit F ex ey ew eh vx vy vw vh aspect =
      .ok ⟨axisFloat F (wordHas aspect ['x', 'm', 'i', 'd']) (wordHas aspect ['x', 'm', 'a', 'x']) ex ew vx vw
          (scalePair aspect (F.fl (ew / vw)) (F.fl (eh / vh))).1,
        axisFloat F (wordHas aspect ['y', 'm', 'i', 'd']) (wordHas aspect ['y', 'm', 'a', 'x']) ey eh vy vh
          (scalePair aspect (F.fl (ew / vw)) (F.fl (eh / vh))).2,
        (scalePair aspect (F.fl (ew / vw)) (F.fl (eh / vh))).1, (scalePair aspect (F.fl (ew / vw)) (F.fl (eh / vh))).2⟩ := by
  unfold Flt.fit
  rw [if_neg hw, if_neg hh]
  rfl

/-- a bound on the error that grows with the size holds for the least of two numbers -/
theorem min_near {a b a' b' η : ℚ} (ha : |a' - a| ≤ |a| / 2 ^ 53 + η) (hb : |b' - b| ≤ |b| / 2 ^ 53 + η) :
    |min a' b' - min a b| ≤ |min a b| / 2 ^ 53 + η := by
  have key : ∀ {a b a' b' : ℚ}, |a' - a| ≤ |a| / 2 ^ 53 + η → |b' - b| ≤ |b| / 2 ^ 53 + η → a ≤ b → |min a' b' - min a b| ≤ |min a b| / 2 ^ 53 + η := by
    intro a b a' b' ha hb h
    rw [min_eq_left h]
    obtain ⟨a1, a2⟩ := abs_le.1 ha
    obtain ⟨b1, b2⟩ := abs_le.1 hb
    have mono : a - |a| / 2 ^ 53 ≤ b - |b| / 2 ^ 53 := by
      rcases le_total 0 a with h1 | h1
      · rw [abs_of_nonneg h1, abs_of_nonneg (h1.trans h)]
        norm_num1
        linarith
      · rcases le_total 0 b with h2 | h2
        · rw [abs_of_nonpos h1, abs_of_nonneg h2]
          norm_num1
          linarith
        · rw [abs_of_nonpos h1, abs_of_nonpos h2]
          norm_num1
          linarith
    rw [abs_le]
    constructor
    · have : a - (|a| / 2 ^ 53 + η) ≤ min a' b' := le_min (by linarith) (by linarith)
      linarith
    · have : min a' b' ≤ a' := min_le_left _ _
      linarith
  rcases le_total a b with h | h
  · exact key ha hb h
  · rw [min_comm a' b', min_comm a b]
    exact key hb ha h

theorem max_near {a b a' b' η : ℚ} (ha : |a' - a| ≤ |a| / 2 ^ 53 + η) (hb : |b' - b| ≤ |b| / 2 ^ 53 + η) :
    |max a' b' - max a b| ≤ |max a b| / 2 ^ 53 + η := by
  have h := min_near (a := -a) (b := -b) (a' := -a') (b' := -b') (η := η)
    (by rw [show -a' - -a = -(a' - a) by ring, abs_neg, abs_neg]; exact ha) (by rw [show -b' - -b = -(b' - b) by ring, abs_neg, abs_neg]; exact hb)
  rw [min_neg_neg, min_neg_neg, abs_neg, show -max a' b' - -max a b = -(max a' b' - max a b) by ring, abs_neg] at h
  exact h

theorem scalePair_near (aspect : Option (List Char)) {a b a' b' η : ℚ} (ha : |a' - a| ≤ |a| / 2 ^ 53 + η) (hb : |b' - b| ≤ |b| / 2 ^ 53 + η) :
    |(scalePair aspect a' b').1 - (scalePair aspect a b).1| ≤ |(scalePair aspect a b).1| / 2 ^ 53 + η ∧
      |(scalePair aspect a' b').2 - (scalePair aspect a b).2| ≤ |(scalePair aspect a b).2| / 2 ^ 53 + η := by
  unfold scalePair
  split_ifs
  · exact ⟨min_near ha hb, min_near ha hb⟩
  · exact ⟨max_near ha hb, max_near ha hb⟩
  · exact ⟨ha, hb⟩

/-- C153: the numbers of the transform of a viewBox, computed with floats, are the exact ones (C32, C33) up to a few roundings, for every aspect ratio -/
theorem C153_numbers (F : FloatRounding) (ex ey ew eh vx vy vw vh : ℚ) (hw : vw ≠ 0) (hh : vh ≠ 0) (aspect : Option (List Char)) :
    ∃ f g : Viewbox.Fit ℚ, Viewbox.fit ex ey ew eh vx vy vw vh aspect = .ok f ∧ Flt.fit F ex ey ew eh vx vy vw vh aspect = .ok g ∧
      |g.scaleX - f.scaleX| ≤ |f.scaleX| / 2 ^ 53 + 1 / 2 ^ 1074 ∧ |g.scaleY - f.scaleY| ≤ |f.scaleY| / 2 ^ 53 + 1 / 2 ^ 1074 ∧
      |g.translateX - f.translateX| ≤ (|ex| + |ew| + |vx * f.scaleX| + |vw * f.scaleX|) / 2 ^ 48 + (|vx| + |vw| + 1) * (1 / 2 ^ 1070) ∧
      |g.translateY - f.translateY| ≤ (|ey| + |eh| + |vy * f.scaleY| + |vh * f.scaleY|) / 2 ^ 48 + (|vy| + |vh| + 1) * (1 / 2 ^ 1070) := by
  refine ⟨_, _, fit_exact ex ey ew eh vx vy vw vh hw hh aspect, fit_float F ex ey ew eh vx vy vw vh hw hh aspect, ?_⟩
  obtain ⟨η, e1, e2, h0, hη⟩ := eta
  have hfl := F.err
  rw [e1] at hfl
  rw [e1, e2]
  obtain ⟨k1, k2⟩ := scalePair_near aspect (hfl (ew / vw)) (hfl (eh / vh))
  exact ⟨k1, k2, axis_err h0 hη hfl k1 _ _ _ _ _ _, axis_err h0 hη hfl k2 _ _ _ _ _ _⟩

/-- C153: the text of the transform, made with floats and read by `Matrix`, is the exact transform of C32 and C33 up to these roundings and half a unit
of the twelfth decimal -/
theorem C153_text (F : FloatRounding) (ex ey ew eh vx vy vw vh : ℚ) (hw : vw ≠ 0) (hh : vh ≠ 0) (aspect : Option (List Char)) :
    ∃ (f : Viewbox.Fit ℚ) (t : List Char) (M : Mat ℝ), Viewbox.fit ex ey ew eh vx vy vw vh aspect = .ok f ∧
      viewboxTransform F ⟨some ex, some ey, some ew, some eh⟩ ⟨some vx, some vy, some vw, some vh⟩ aspect = .ok t ∧
      (∀ ctx, LMat.ofText ctx t = .ok (LMat.ofMat M)) ∧ M.b = 0 ∧ M.c = 0 ∧
      |M.a - f.scaleX| ≤ |(f.scaleX : ℝ)| / 2 ^ 53 + 1 / 10 ^ 12 ∧ |M.d - f.scaleY| ≤ |(f.scaleY : ℝ)| / 2 ^ 53 + 1 / 10 ^ 12 ∧
      |M.e - f.translateX| ≤ (|(ex : ℝ)| + |(ew : ℝ)| + |(vx * f.scaleX : ℝ)| + |(vw * f.scaleX : ℝ)|) / 2 ^ 48 +
        (|(vx : ℝ)| + |(vw : ℝ)|) / 2 ^ 1070 + 1 / 10 ^ 12 ∧
      |M.f - f.translateY| ≤ (|(ey : ℝ)| + |(eh : ℝ)| + |(vy * f.scaleY : ℝ)| + |(vh * f.scaleY : ℝ)|) / 2 ^ 48 +
        (|(vy : ℝ)| + |(vh : ℝ)|) / 2 ^ 1070 + 1 / 10 ^ 12 := by
  obtain ⟨f, g, h1, h2, h3, h4, h5, h6⟩ := C153_numbers F ex ey ew eh vx vy vw vh hw hh aspect
  obtain ⟨M, m1, m2, m3, m4, m5, m6, m7⟩ := text_read g
  refine ⟨f, Viewbox.text g, M, h1, by simp only [viewboxTransform, h2]; rfl, m1, m2, m3, ?_⟩
  have c3 := (Rat.cast_le (K := ℝ)).2 h3
  have c4 := (Rat.cast_le (K := ℝ)).2 h4
  have c5 := (Rat.cast_le (K := ℝ)).2 h5
  have c6 := (Rat.cast_le (K := ℝ)).2 h6
  push_cast at c3 c4 c5 c6
  have s1 : (1 : ℝ) / 2 ^ 1074 ≤ 1 / 2 ^ 41 := by
    apply one_div_le_one_div_of_le (by positivity)
    exact pow_le_pow_right₀ (by norm_num) (by norm_num)
  have s2 : (1 : ℝ) / 2 ^ 1070 ≤ 1 / 2 ^ 41 := by
    apply one_div_le_one_div_of_le (by positivity)
    exact pow_le_pow_right₀ (by norm_num) (by norm_num)
  have s3 : (1 : ℝ) / 2 ^ 41 ≤ 1 / (2 * 10 ^ 12) := by norm_num
  have tri : ∀ {a b c p q : ℝ}, |a - b| ≤ p → |b - c| ≤ q → |a - c| ≤ p + q := by
    intro a b c p q h h'
    have := abs_add_le (a - b) (b - c)
    rw [sub_add_sub_cancel] at this
    linarith
  have hv : ∀ a b : ℝ, (a + b + 1) * (1 / 2 ^ 1070) = (a + b) / 2 ^ 1070 + 1 / 2 ^ 1070 := by intro a b; ring
  have e12 : (1 : ℝ) / 10 ^ 12 = 1 / (2 * 10 ^ 12) + 1 / (2 * 10 ^ 12) := by norm_num
  rw [hv] at c5 c6
  rw [e12]
  refine ⟨(tri m4 c3).trans ?_, (tri m5 c4).trans ?_, (tri m6 c5).trans ?_, (tri m7 c6).trans ?_⟩ <;> linarith

/-- C153: with the alignment `none` the corner of the viewBox goes to the corner of the element, up to the roundings -/
theorem C153_corner (F : FloatRounding) (ex ey ew eh vx vy vw vh : ℚ) (hw : vw ≠ 0) (hh : vh ≠ 0) :
    ∃ g : Viewbox.Fit ℚ, Flt.fit F ex ey ew eh vx vy vw vh (some "none".toList) = .ok g ∧
      |g.translateX + g.scaleX * vx - ex| ≤ (|ex| + 2 * |ew| + 2 * |vx * (ew / vw)|) / 2 ^ 47 + (|vx| + |vw| + 1) * (1 / 2 ^ 1069) ∧
      |g.translateX + g.scaleX * (vx + vw) - (ex + ew)| ≤ (|ex| + 2 * |ew| + 2 * |vx * (ew / vw)|) / 2 ^ 47 + (|vx| + |vw| + 1) * (1 / 2 ^ 1069) ∧
      |g.translateY + g.scaleY * vy - ey| ≤ (|ey| + 2 * |eh| + 2 * |vy * (eh / vh)|) / 2 ^ 47 + (|vy| + |vh| + 1) * (1 / 2 ^ 1069) ∧
      |g.translateY + g.scaleY * (vy + vh) - (ey + eh)| ≤ (|ey| + 2 * |eh| + 2 * |vy * (eh / vh)|) / 2 ^ 47 + (|vy| + |vh| + 1) * (1 / 2 ^ 1069) := by
  obtain ⟨f, g, h1, h2, h3, h4, h5, h6⟩ := C153_numbers F ex ey ew eh vx vy vw vh hw hh (some "none".toList)
  obtain ⟨f', k1, k2, k3, k4, k5⟩ := C32_none ex ey ew eh vx vy vw vh hw hh [] (.inl rfl)
  rw [List.append_nil, h1] at k1
  cases k1
  refine ⟨g, h2, ?_⟩
  obtain ⟨η, e1, e2, h0, hη⟩ := eta
  have e3 : (1 : ℚ) / 2 ^ 1069 = 32 * η := by
    rw [show (32 : ℚ) * η = 2 * (16 * η) by ring, ← e2, show 1070 = 1069 + 1 from rfl, pow_add]
    field_simp
  rw [e1] at h3 h4
  rw [e2] at h5 h6
  rw [e3]
  have step : ∀ {t t0 s s0 v vs e es : ℚ}, vs ≠ 0 → |s - s0| ≤ |s0| / 2 ^ 53 + η →
      |t - t0| ≤ (|e| + |es| + |v * s0| + |vs * s0|) / 2 ^ 48 + (|v| + |vs| + 1) * (16 * η) → t0 + s0 * v = e → t0 + s0 * (v + vs) = e + es →
      |t + s * v - e| ≤ (|e| + 2 * |es| + 2 * |v * (es / vs)|) / 2 ^ 47 + (|v| + |vs| + 1) * (32 * η) ∧
      |t + s * (v + vs) - (e + es)| ≤ (|e| + 2 * |es| + 2 * |v * (es / vs)|) / 2 ^ 47 + (|v| + |vs| + 1) * (32 * η) := by
    intro t t0 s s0 v vs e es hvs hs ht k1 k2
    have q : vs * s0 = es := by linarith
    have q' : es / vs = s0 := by rw [← q]; field_simp
    rw [q] at ht
    rw [q']
    have p1 : |(s - s0) * v| ≤ |v * s0| / 2 ^ 53 + |v| * η := by
      rw [abs_mul, abs_mul]
      calc |s - s0| * |v| ≤ (|s0| / 2 ^ 53 + η) * |v| := by gcongr
        _ = _ := by ring
    have p2 : |(s - s0) * vs| ≤ |es| / 2 ^ 53 + |vs| * η := by
      rw [← q, abs_mul, abs_mul]
      calc |s - s0| * |vs| ≤ (|s0| / 2 ^ 53 + η) * |vs| := by gcongr
        _ = _ := by ring
    have c0 : 0 ≤ |v| * η := by positivity
    have d0 : 0 ≤ |vs| * η := by positivity
    have e0 := abs_nonneg e
    have es0 := abs_nonneg es
    have vs0 := abs_nonneg (v * s0)
    rw [show (|v| + |vs| + 1) * (16 * η) = 16 * (|v| * η) + 16 * (|vs| * η) + 16 * η by ring] at ht
    rw [show (|v| + |vs| + 1) * (32 * η) = 32 * (|v| * η) + 32 * (|vs| * η) + 32 * η by ring]
    constructor
    · have a := abs_add_le (t - t0) ((s - s0) * v)
      rw [show t - t0 + (s - s0) * v = t + s * v - (t0 + s0 * v) by ring, k1] at a
      norm_num1 at *
      linarith
    · have a := abs_add_le (t - t0) ((s - s0) * v + (s - s0) * vs)
      have b := abs_add_le ((s - s0) * v) ((s - s0) * vs)
      rw [show t - t0 + ((s - s0) * v + (s - s0) * vs) = t + s * (v + vs) - (t0 + s0 * (v + vs)) by ring, k2] at a
      norm_num1 at *
      linarith
  obtain ⟨x1, x2⟩ := step hw h3 h5 k2 k3
  obtain ⟨y1, y2⟩ := step hh h4 h6 k4 k5
  exact ⟨x1, x2, y1, y2⟩

/-- C153: a viewBox without width or height raises ZeroDivisionError, and without one of the numbers there is no transform -/
theorem C153_none (F : FloatRounding) (e vb : Box ℚ) (aspect : Option (List Char)) :
    (¬(Known e ∧ Known vb) → viewboxTransform F e vb aspect = .ok []) ∧
      (Known e → Known vb → vb.width = some 0 ∨ vb.height = some 0 → viewboxTransform F e vb aspect = .error .zeroDivisionError) := by
  obtain ⟨a, b, c, d⟩ := e
  obtain ⟨a', b', c', d'⟩ := vb
  constructor
  · intro h
    unfold viewboxTransform
    split
    · rename_i h1 h2 h3 h4 h5 h6 h7 h8
      exfalso; apply h
      simp only at h1 h2 h3 h4 h5 h6 h7 h8
      simp [Known, h1, h2, h3, h4, h5, h6, h7, h8]
    · rfl
  · rintro ⟨k1, k2, k3, k4⟩ ⟨l1, l2, l3, l4⟩ h
    simp only at k1 k2 k3 k4 l1 l2 l3 l4 h
    obtain ⟨a, rfl⟩ := Option.ne_none_iff_exists'.1 k1
    obtain ⟨b, rfl⟩ := Option.ne_none_iff_exists'.1 k2
    obtain ⟨c, rfl⟩ := Option.ne_none_iff_exists'.1 k3
    obtain ⟨d, rfl⟩ := Option.ne_none_iff_exists'.1 k4
    obtain ⟨a', rfl⟩ := Option.ne_none_iff_exists'.1 l1
    obtain ⟨b', rfl⟩ := Option.ne_none_iff_exists'.1 l2
    obtain ⟨c', rfl⟩ := Option.ne_none_iff_exists'.1 l3
    obtain ⟨d', rfl⟩ := Option.ne_none_iff_exists'.1 l4
    simp only [Option.some.injEq] at h
    simp only [viewboxTransform, Flt.fit]
    by_cases hw : c' = 0
    · rw [if_pos hw]; rfl
    · rw [if_neg hw, if_pos (h.resolve_left hw)]; rfl

/-- a viewBox that is scaled by a third -/
example : ∃ g, Flt.fit doubles 0 0 100 100 0 0 300 400 (some "none".toList) = .ok g ∧ g.scaleX = 6004799503160661 / 2 ^ 54 ∧ g.scaleY = 1 / 4 := by
  refine ⟨⟨0, 0, 6004799503160661 / 2 ^ 54, 1 / 4⟩, ?_, rfl, rfl⟩
  decide +kernel

end Svgio.Props
