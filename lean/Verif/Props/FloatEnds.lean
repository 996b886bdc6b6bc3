import Verif.Model.FloatGeom
import Verif.Lemmas.Ieee

/-!
C120: with floats, curves begin and end exactly at their end points. C121: the identity, translations and undoing them with floats.
-/

namespace Svgio.Props

open Svgio.Flt Spec

/-- doubles are a rounding as assumed in `FloatRounding` -/
def doubles : FloatRounding where
  fl := roundDouble
  err := roundDouble_err
  exact _ h := roundDouble_double (isDouble_int h)

/-- powers rounded to doubles are as assumed in `FloatPow` -/
def doublePow : FloatPow where
  pow x n := roundDouble (x ^ n)
  zero n h := by rw [zero_pow (by omega)]; exact roundDouble_double (isDouble_int (n := 0) (by norm_num))
  one n := by rw [one_pow]; exact roundDouble_double (by exact_mod_cast isDouble_int (n := 1) (by norm_num))
  err x n := by
    refine (roundDouble_err _).trans ?_
    have : 0 ≤ |x ^ n| := abs_nonneg _
    have : |x ^ n| / 2 ^ 53 ≤ |x ^ n| / 2 ^ 52 := by
      apply div_le_div_of_nonneg_left this <;> norm_num
    linarith

variable (F : FloatRounding) (P : FloatPow)

/-- both coordinates are floats -/
def FloatPt (p : Pt ℚ) : Prop := F.fl p.x = p.x ∧ F.fl p.y = p.y

theorem fl_zero : F.fl 0 = 0 := by exact_mod_cast F.exact 0 (by norm_num)
theorem fl_one : F.fl 1 = 1 := by exact_mod_cast F.exact 1 (by norm_num)

/-- the points of a curve: start, control points, end -/
def CurvePoints (s : Seg ℚ) (p q : Pt ℚ) : Prop :=
  s.start = some p ∧ s.stop = some q ∧ ((∃ c, s.kind = .quad (some c)) ∨ ∃ c d, s.kind = .cubic (some c) (some d))

/-- C120: with floats, a quadratic or cubic curve begins and ends exactly at its end points, whatever its control points, with numpy or
without -/
theorem C120_curves (numpy : Bool) {s : Seg ℚ} {p q : Pt ℚ} (h : CurvePoints s p q) (hp : FloatPt F p) (hq : FloatPt F q) :
    Flt.point F P numpy s 0 = .ok p ∧ Flt.point F P numpy s 1 = .ok q := by
  obtain ⟨kind, start, stop, rel, smooth⟩ := s
  obtain ⟨h1, h2, h3⟩ := h
  obtain ⟨hp1, hp2⟩ := hp
  obtain ⟨hq1, hq2⟩ := hq
  have z := fl_zero F
  have o := fl_one F
  have p2 := P.zero 2 (by norm_num)
  have p3 := P.zero 3 (by norm_num)
  have q2 := P.one 2
  have q3 := P.one 3
  simp only at h1 h2 h3
  subst h1 h2
  rcases h3 with ⟨c, rfl⟩ | ⟨c, d, rfl⟩
  · constructor <;> simp [Flt.point, Flt.quadAt, z, o, p2, q2, hp1, hp2, hq1, hq2]
  · constructor <;> simp [Flt.point, Flt.cubicAt, z, o, p3, q3, hp1, hp2, hq1, hq2]

/-- a line or close from `p` to `q` -/
def LinePoints (s : Seg ℚ) (p q : Pt ℚ) : Prop := s.start = some p ∧ s.stop = some q ∧ (s.kind = .line ∨ s.kind = .close)

/-- C120: with floats, a line begins exactly at its start, and with numpy it ends exactly at its end. Without numpy it ends exactly at its
end if the differences of the coordinates are floats -/
theorem C120_lines_partial {s : Seg ℚ} {p q : Pt ℚ} (h : LinePoints s p q) (hp : FloatPt F p) (hq : FloatPt F q) :
    (∀ numpy, Flt.point F P numpy s 0 = .ok p) ∧ Flt.point F P true s 1 = .ok q ∧
    (FloatPt F (q.sub p) → Flt.point F P false s 1 = .ok q) := by
  obtain ⟨kind, start, stop, rel, smooth⟩ := s
  obtain ⟨h1, h2, h3⟩ := h
  obtain ⟨hp1, hp2⟩ := hp
  obtain ⟨hq1, hq2⟩ := hq
  have z := fl_zero F
  simp only at h1 h2 h3
  subst h1 h2
  refine ⟨?_, ?_, ?_⟩
  · rintro (_ | _) <;> rcases h3 with rfl | rfl <;>
      simp [Flt.point, Flt.linearAt, Flt.towardsAt, Flt.interpAt, z, hp1, hp2]
  · rcases h3 with rfl | rfl <;>
      simp [Flt.point, Flt.linearAt, Flt.interpAt, show ¬ (1 : ℚ) ≤ 0 by norm_num]
  · rintro ⟨d1, d2⟩
    simp only [Pt.sub] at d1 d2
    rcases h3 with rfl | rfl <;>
      simp [Flt.point, Flt.linearAt, Flt.towardsAt, d1, d2, hq1, hq2]

/-- with doubles, the line from (10^17, 0) to (1, 0) ends without numpy at (0, 0) -/
theorem C120_end_wrong : ∃ (s : Seg ℚ) (p q : Pt ℚ), LinePoints s p q ∧ FloatPt doubles p ∧ FloatPt doubles q ∧
    Flt.point doubles doublePow false s 1 = .ok ⟨0, 0⟩ ∧ q = ⟨1, 0⟩ := by
  refine ⟨⟨.line, some ⟨10 ^ 17, 0⟩, some ⟨1, 0⟩, false, true⟩, _, _, ⟨rfl, rfl, .inl rfl⟩, ?_, ?_, ?_, rfl⟩
  · exact ⟨by decide +kernel, by decide +kernel⟩
  · exact ⟨by decide +kernel, by decide +kernel⟩
  · decide +kernel

example : CurvePoints ⟨.cubic (some ⟨1, 2⟩) (some ⟨3, 4⟩), some ⟨1 / 2, 0⟩, some ⟨7, 1 / 4⟩, false, true⟩ ⟨1 / 2, 0⟩ ⟨7, 1 / 4⟩ ∧
    FloatPt doubles ⟨1 / 2, 0⟩ ∧ FloatPt doubles ⟨7, 1 / 4⟩ :=
  ⟨⟨rfl, rfl, .inr ⟨_, _, rfl⟩⟩, ⟨by decide +kernel, by decide +kernel⟩, ⟨by decide +kernel, by decide +kernel⟩⟩

/-- rounding twice is rounding once, and the negative of a float is a float -/
structure Standard : Prop where
  idem : ∀ x, F.fl (F.fl x) = F.fl x
  neg : ∀ x, F.fl x = x → F.fl (-x) = -x

/-- doubles are like this -/
theorem doubles_standard : Standard doubles where
  idem x := roundDouble_double (roundDouble_isDouble x)
  neg x h := by
    have hd : IsDouble x := by
      have := roundDouble_isDouble x
      rwa [show roundDouble x = x from h] at this
    obtain ⟨k, m, rfl, hk, hm⟩ := hd
    exact roundDouble_double ⟨-k, m, by push_cast; ring, by rwa [abs_neg], hm⟩

/-- C121: rounding to doubles gives a double, none is nearer, and doubles are not changed -/
theorem C121_doubles (x : ℚ) : IsDouble (doubles.fl x) ∧ (∀ d, IsDouble d → |doubles.fl x - x| ≤ |d - x|) ∧
    (IsDouble x → doubles.fl x = x) :=
  ⟨roundDouble_isDouble x, fun _ h => roundDouble_nearest x h, roundDouble_double⟩

/-- all six entries are floats -/
def FloatMat (m : Mat ℚ) : Prop := F.fl m.a = m.a ∧ F.fl m.b = m.b ∧ F.fl m.c = m.c ∧ F.fl m.d = m.d ∧ F.fl m.e = m.e ∧ F.fl m.f = m.f

/-- C121: with floats, the identity changes no point and no matrix, from either side, and a translation gives the correctly rounded sum -/
theorem C121_identity {v : Pt ℚ} (hv : FloatPt F v) {m : Mat ℚ} (hm : FloatMat F m) (tx ty : ℚ) (ht : FloatPt F ⟨tx, ty⟩) :
    Flt.pointInMatrixSpace F ⟨1, 0, 0, 1, 0, 0⟩ v = v ∧
    Flt.multiply F ⟨1, 0, 0, 1, 0, 0⟩ m = m ∧ Flt.multiply F m ⟨1, 0, 0, 1, 0, 0⟩ = m ∧
    Flt.pointInMatrixSpace F (Mat.translate tx ty) v = ⟨F.fl (v.x + tx), F.fl (v.y + ty)⟩ := by
  obtain ⟨h1, h2⟩ := hv
  obtain ⟨a, b, c, d, e, f⟩ := m
  obtain ⟨ha, hb, hc, hd, he, hf⟩ := hm
  obtain ⟨t1, t2⟩ := ht
  have z := fl_zero F
  simp only at ha hb hc hd he hf t1 t2
  refine ⟨?_, ?_, ?_, ?_⟩ <;>
    simp [Flt.pointInMatrixSpace, Flt.multiply, Flt.dot3, Mat.translate, z, h1, h2, ha, hb, hc, hd, he, hf, t1, t2]

/-- C121: with floats, a translation is undone exactly by its inverse as a matrix: the inverse is the opposite translation -/
theorem C121_inverse (hF : Standard F) (tx ty : ℚ) (ht : FloatPt F ⟨tx, ty⟩) :
    Flt.inverse F (Mat.translate tx ty) = (Mat.translate (-tx) (-ty), .ok ()) := by
  obtain ⟨t1, t2⟩ := ht
  simp only at t1 t2
  have n1 := hF.neg _ t1
  have n2 := hF.neg _ t2
  have z := fl_zero F
  have o := fl_one F
  simp [Flt.inverse, Mat.translate, z, o, t1, t2, n1, n2]

theorem fl_bound {x B : ℚ} (h : |x| ≤ B) : |F.fl x - x| ≤ B / 2 ^ 53 + 1 / 2 ^ 1074 := by
  refine (F.err x).trans ?_
  gcongr

theorem tiny : (1 : ℚ) / 2 ^ 1074 ≤ 1 / 2 ^ 100 := by
  apply one_div_le_one_div_of_le
  · positivity
  · exact pow_le_pow_right₀ (by norm_num) (by norm_num)

/-- there and back: one coordinate -/
theorem back {x t : ℚ} (hx : |x| ≤ 2000) (ht : |t| ≤ 2000) :
    |F.fl (F.fl (F.fl (x + t) + -t) - x)| ≤ F.fl err := by
  have η := tiny
  have hs : |x + t| ≤ 4000 := (abs_add_le _ _).trans (by linarith)
  have h1 := fl_bound F hs
  generalize F.fl (x + t) = s at *
  have hs2 : |s + -t| ≤ 2001 := by
    have : s + -t = (s - (x + t)) + x := by ring
    rw [this]
    refine (abs_add_le _ _).trans ?_
    linarith
  have h2 := fl_bound F hs2
  generalize F.fl (s + -t) = r at *
  have h3 : |r - x| ≤ 98 / 10 ^ 14 := by
    have : r - x = (r - (s + -t)) + (s - (x + t)) := by ring
    rw [this]
    refine (abs_add_le _ _).trans ?_
    linarith
  have h4 := fl_bound F h3
  have h5 : |F.fl (r - x)| ≤ 99 / 10 ^ 14 := by
    have : F.fl (r - x) = (F.fl (r - x) - (r - x)) + (r - x) := by ring
    rw [this]
    refine (abs_add_le _ _).trans ?_
    linarith
  have h6 : |F.fl err - err| ≤ _ := F.err err
  rw [abs_of_pos (show (0 : ℚ) < err by unfold err; positivity), abs_le] at h6
  unfold err at h6 ⊢
  linarith [h6.1]

/-- C121: with floats, a point that is moved and then moved back by the inverse equals the point before, as `==` compares points, if all
numbers are at most 2000 -/
theorem C121_back_partial (hF : Standard F) {v : Pt ℚ} (hv : FloatPt F v) (tx ty : ℚ) (ht : FloatPt F ⟨tx, ty⟩)
    (hx : |v.x| ≤ 2000) (hy : |v.y| ≤ 2000) (htx : |tx| ≤ 2000) (hty : |ty| ≤ 2000) :
    ∃ w, Flt.pointInInverseSpace F (Mat.translate tx ty) (Flt.pointInMatrixSpace F (Mat.translate tx ty) v) = .ok w ∧
      Flt.eq F w v = true := by
  have hI : FloatMat F ⟨1, 0, 0, 1, 0, 0⟩ := ⟨fl_one F, fl_zero F, fl_zero F, fl_one F, fl_zero F, fl_zero F⟩
  have hn : FloatPt F ⟨-tx, -ty⟩ := ⟨hF.neg _ ht.1, hF.neg _ ht.2⟩
  have h1 := (C121_identity F hv hI tx ty ht).2.2.2
  have hv2 : FloatPt F ⟨F.fl (v.x + tx), F.fl (v.y + ty)⟩ := ⟨hF.idem _, hF.idem _⟩
  have h2 := (C121_identity F hv2 hI (-tx) (-ty) hn).2.2.2
  refine ⟨⟨F.fl (F.fl (v.x + tx) + -tx), F.fl (F.fl (v.y + ty) + -ty)⟩, ?_, ?_⟩
  · unfold Flt.pointInInverseSpace
    rw [C121_inverse F hF tx ty ht, h1]
    exact congrArg _ h2
  · unfold Flt.eq
    rw [decide_eq_true (back F hx htx), decide_eq_true (back F hy hty)]
    rfl

/-- with doubles, a point moved by 2^20 and back need not equal the point before -/
theorem C121_back_wrong : ∃ (v : Pt ℚ) (tx ty : ℚ) (w : Pt ℚ), FloatPt doubles v ∧ FloatPt doubles ⟨tx, ty⟩ ∧
    Flt.pointInInverseSpace doubles (Mat.translate tx ty) (Flt.pointInMatrixSpace doubles (Mat.translate tx ty) v) = .ok w ∧
      Flt.eq doubles w v = false :=
  ⟨⟨1 / 2 ^ 34, 0⟩, 2 ^ 20, 0, ⟨0, 0⟩, ⟨by decide +kernel, by decide +kernel⟩, ⟨by decide +kernel, by decide +kernel⟩,
    by decide +kernel, by decide +kernel⟩

example : FloatPt doubles ⟨1 / 4, -3⟩ ∧ FloatMat doubles ⟨1 / 4, 2, -3, 4, 5, 6⟩ :=
  ⟨⟨by decide +kernel, by decide +kernel⟩, by unfold FloatMat; decide +kernel⟩

end Svgio.Props
