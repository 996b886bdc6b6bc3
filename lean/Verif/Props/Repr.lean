import Verif.Model.Repr
import Verif.Model.Angle
import Verif.Spec.PyCall
import Verif.Lemmas.Fmt
import Verif.Props.LengthText
import Verif.Props.ColorText
import Verif.Props.ColorKeywords
import Mathlib.Tactic.Linarith
import Mathlib.Tactic.NormNum
import Mathlib.Data.Rat.Floor

/-!
C110: `eval(repr(x)) == x`.
-/

namespace Svgio.Props

open Svgio Spec

/-! ### points and matrices -/

theorem numText_str (x : ℚ) : ∃ y, NumText (lengthStr x) y ∧ |y - x| ≤ err := by
  refine ⟨_, ⟨lengthStr_isNumber x, rfl⟩, (lengthStr_close x).trans ?_⟩
  rw [err]; norm_num

theorem pointText_repr (p : Pt ℚ) : ∃ q, PointText (Repr.point p) (some q) ∧ q.eq p = true := by
  obtain ⟨x, hx, ex⟩ := numText_str p.x
  obtain ⟨y, hy, ey⟩ := numText_str p.y
  refine ⟨⟨x, y⟩, Or.inr ⟨_, _, x, y, Or.inl ?_, hx, hy, rfl⟩, by simp [Pt.eq, ex, ey]⟩
  simp [Repr.point, sepBy, argText]

theorem pointText_opt (p : Option (Pt ℚ)) : ∃ q, PointText (Repr.optPoint p) q ∧ optEq q p = true := by
  cases p with
  | none => exact ⟨none, Or.inl ⟨rfl, rfl⟩, rfl⟩
  | some p => obtain ⟨q, h, e⟩ := pointText_repr p; exact ⟨some q, h, e⟩

/-- C110: `repr(p)` is a call of `Point` with two number literals, and the point with these coordinates equals `p`. -/
theorem C110_point (p : Pt ℚ) :
    ∃ a b x y, CallText (Repr.point p) "Point".toList [([], a), ([], b)] ∧ NumText a x ∧ NumText b y ∧
      (⟨x, y⟩ : Pt ℚ).eq p = true := by
  obtain ⟨x, hx, ex⟩ := numText_str p.x
  obtain ⟨y, hy, ey⟩ := numText_str p.y
  refine ⟨_, _, x, y, Or.inl ?_, hx, hy, by simp [Pt.eq, ex, ey]⟩
  simp [Repr.point, sepBy, argText]

example : Repr.point ⟨-1 / 3, 20⟩ = "Point(-0.333333333333,20)".toList := by decide +kernel

/-- C110: `repr(m)` is a call of `Matrix` with six number literals, and the matrix with these components equals `m`. -/
theorem C110_matrix (m : Mat ℚ) :
    ∃ ts : List (List Char), ∃ a b c d e f : ℚ, CallText (Repr.matrix m) "Matrix".toList (ts.map fun t => ([], t)) ∧
      List.Forall₂ NumText ts [a, b, c, d, e, f] ∧ Mat.eq ⟨a, b, c, d, e, f⟩ m = true := by
  obtain ⟨a, ha, ea⟩ := numText_str m.a
  obtain ⟨b, hb, eb⟩ := numText_str m.b
  obtain ⟨c, hc, ec⟩ := numText_str m.c
  obtain ⟨d, hd, ed⟩ := numText_str m.d
  obtain ⟨e, he, ee⟩ := numText_str m.e
  obtain ⟨f, hf, ef⟩ := numText_str m.f
  unfold Repr.matrix
  generalize lengthStr m.a = ta at *
  generalize lengthStr m.b = tb at *
  generalize lengthStr m.c = tc at *
  generalize lengthStr m.d = td at *
  generalize lengthStr m.e = te at *
  generalize lengthStr m.f = tf at *
  refine ⟨[ta, tb, tc, td, te, tf], a, b, c, d, e, f,
    Or.inr ?_, .cons ha (.cons hb (.cons hc (.cons hd (.cons he (.cons hf .nil))))), ?_⟩
  · simp [sepBy, argText]
  · simp [Mat.eq, not_lt.mpr ea, not_lt.mpr eb, not_lt.mpr ec, not_lt.mpr ed, not_lt.mpr ee, not_lt.mpr ef]

example : Repr.matrix ⟨1, 0, 0, 1 / 2, -3, 4⟩ = "Matrix(1, 0, 0, 0.5, -3, 4)".toList := by decide +kernel

/-! ### segments -/

/-- `t` is a call with points as arguments, each under a keyword, and it makes the segment `s`. -/
def Evaluates (t : List Char) (s : Seg ℚ) : Prop :=
  ∃ name args vals, CallText t name args ∧
    List.Forall₂ (fun (a : List Char × List Char) (v : List Char × Option (Pt ℚ)) => a.1 = v.1 ∧ PointText a.2 v.2) args vals ∧
    Repr.construct name vals = .ok s

/-- not an arc; both controls of a cubic curve are set, or none -/
def Printable (s : Seg ℚ) : Prop :=
  match s.kind with
  | .arc _ => False
  | .cubic c d => c.isSome = d.isSome
  | _ => True

theorem optEq_isSome {p q : Option (Pt ℚ)} (h : optEq p q = true) : p.isSome = q.isSome := by
  cases p <;> cases q <;> simp_all [optEq]

/-- C110: evaluating `repr(s)` for a segment other than an arc makes a segment that equals `s`. Both controls of a cubic curve
are set or none is: the constructor makes no others. -/
theorem C110_segment (w : List Char) (s : Seg ℚ) (hs : Printable s) :
    ∃ s', Evaluates (Repr.segment w s) s' ∧ s'.eq s = true := by
  obtain ⟨kind, start, stop, rel, sm⟩ := s
  obtain ⟨a, ha, ea⟩ := pointText_opt start
  obtain ⟨b, hb, eb⟩ := pointText_opt stop
  cases kind with
  | move =>
    cases start with
    | none =>
      refine ⟨⟨.move, none, b, false, true⟩, ⟨"Move".toList, [("end".toList, Repr.optPoint stop)], [("end".toList, b)],
        Or.inr ?_, .cons ⟨rfl, hb⟩ .nil, ?_⟩, ?_⟩
      · simp [Repr.segment, sepBy, argText]
      · rfl
      · simp only [Seg.eq, eb, Bool.and_true]; rfl
    | some p =>
      refine ⟨⟨.move, a, b, false, true⟩, ⟨"Move".toList, [("start".toList, Repr.optPoint (some p)), ("end".toList, Repr.optPoint stop)],
        [("start".toList, a), ("end".toList, b)], Or.inr ?_, .cons ⟨rfl, ha⟩ (.cons ⟨rfl, hb⟩ .nil), ?_⟩, ?_⟩
      · simp [Repr.segment, sepBy, argText, Repr.optPoint]
      · rfl
      · simp [Seg.eq, ea, eb]
  | line =>
    cases start with
    | none =>
      refine ⟨⟨.line, none, b, false, true⟩, ⟨"Line".toList, [("end".toList, Repr.optPoint stop)], [("end".toList, b)],
        Or.inr ?_, .cons ⟨rfl, hb⟩ .nil, ?_⟩, ?_⟩
      · simp [Repr.segment, sepBy, argText]
      · rfl
      · simp only [Seg.eq, eb, Bool.and_true]; rfl
    | some p =>
      refine ⟨⟨.line, a, b, false, true⟩, ⟨"Line".toList, [("start".toList, Repr.optPoint (some p)), ("end".toList, Repr.optPoint stop)],
        [("start".toList, a), ("end".toList, b)], Or.inr ?_, .cons ⟨rfl, ha⟩ (.cons ⟨rfl, hb⟩ .nil), ?_⟩, ?_⟩
      · simp [Repr.segment, sepBy, argText, Repr.optPoint]
      · rfl
      · simp [Seg.eq, ea, eb]
  | close =>
    by_cases h : start = none ∧ stop = none
    · obtain ⟨rfl, rfl⟩ := h
      refine ⟨⟨.close, none, none, false, true⟩, ⟨"Close".toList, [], [], Or.inr ?_, .nil, ?_⟩, ?_⟩
      · simp [Repr.segment, sepBy]
      · rfl
      · simp [Seg.eq, optEq]
    · refine ⟨⟨.close, a, b, false, true⟩, ⟨"Close".toList, [("start".toList, Repr.optPoint start), ("end".toList, Repr.optPoint stop)],
        [("start".toList, a), ("end".toList, b)], Or.inr ?_, .cons ⟨rfl, ha⟩ (.cons ⟨rfl, hb⟩ .nil), ?_⟩, ?_⟩
      · cases start <;> cases stop <;> simp_all [Repr.segment, sepBy, argText]
      · rfl
      · simp [Seg.eq, ea, eb]
  | quad c =>
    obtain ⟨c', hc, ec⟩ := pointText_opt c
    refine ⟨⟨.quad c', a, b, false, true⟩, ⟨"QuadraticBezier".toList,
      [("start".toList, Repr.optPoint start), ("control".toList, Repr.optPoint c), ("end".toList, Repr.optPoint stop)],
      [("start".toList, a), ("control".toList, c'), ("end".toList, b)], Or.inr ?_,
      .cons ⟨rfl, ha⟩ (.cons ⟨rfl, hc⟩ (.cons ⟨rfl, hb⟩ .nil)), ?_⟩, ?_⟩
    · simp [Repr.segment, sepBy, argText]
    · rfl
    · simp [Seg.eq, ea, eb, ec]
  | cubic c d =>
    obtain ⟨c', hc, ec⟩ := pointText_opt c
    obtain ⟨d', hd, ed⟩ := pointText_opt d
    have hcd : c'.isSome = d'.isSome := by
      rw [optEq_isSome ec, optEq_isSome ed]; exact hs
    refine ⟨⟨.cubic c' d', a, b, false, true⟩, ⟨"CubicBezier".toList,
      [("start".toList, Repr.optPoint start), ("control1".toList, Repr.optPoint c), ("control2".toList, Repr.optPoint d),
        ("end".toList, Repr.optPoint stop)],
      [("start".toList, a), ("control1".toList, c'), ("control2".toList, d'), ("end".toList, b)], Or.inr ?_,
      .cons ⟨rfl, ha⟩ (.cons ⟨rfl, hc⟩ (.cons ⟨rfl, hd⟩ (.cons ⟨rfl, hb⟩ .nil))), ?_⟩, ?_⟩
    · simp [Repr.segment, sepBy, argText]
    · cases c' <;> cases d' <;> first | rfl | simp at hcd
    · simp [Seg.eq, ea, eb, ec, ed]
  | arc x => exact absurd hs (by simp [Printable])

example : Printable ⟨.cubic (some ⟨1, 2⟩) (some ⟨3, 4⟩), some ⟨0, 0⟩, some ⟨1 / 3, 0⟩, true, false⟩ := rfl
example : Repr.segment [] ⟨.cubic (some ⟨1, 2⟩) (some ⟨3, 4⟩), some ⟨0, 0⟩, some ⟨1 / 2, 0⟩, true, false⟩ =
    "CubicBezier(start=Point(0,0), control1=Point(1,2), control2=Point(3,4), end=Point(0.5,0))".toList := by decide +kernel
example : Repr.segment [] ⟨.close, none, some ⟨1, 0⟩, true, false⟩ = "Close(start=None, end=Point(1,0))".toList := by decide +kernel

/-- C110: evaluating `repr(s)` for an arc makes an arc that equals `s`. The sweep is a float: `w`, its text, is a literal of it. -/
theorem C110_arc (w : List Char) (s : Seg ℚ) (a : ArcData ℚ) (hs : s.kind = .arc a) (hw : NumText w a.sweep) :
    ∃ t1 t2 t3 t4 t5 p1 p2 p3 p4 p5 s', CallText (Repr.segment w s) "Arc".toList
        [([], t1), ([], t2), ([], t3), ([], t4), ([], t5), ([], w)] ∧
      PointText t1 p1 ∧ PointText t2 p2 ∧ PointText t3 p3 ∧ PointText t4 p4 ∧ PointText t5 p5 ∧
      Repr.constructArc p1 p2 p3 p4 p5 (floatVal w) = .ok s' ∧ s'.eq s = true := by
  obtain ⟨kind, start, stop, rel, sm⟩ := s
  simp only at hs
  subst hs
  obtain ⟨p1, h1, e1⟩ := pointText_opt start
  obtain ⟨p2, h2, e2⟩ := pointText_opt stop
  obtain ⟨p3, h3, e3⟩ := pointText_repr a.center
  obtain ⟨p4, h4, e4⟩ := pointText_repr a.prx
  obtain ⟨p5, h5, e5⟩ := pointText_repr a.pry
  refine ⟨_, _, _, _, _, p1, p2, some p3, some p4, some p5, ⟨.arc ⟨p3, p4, p5, floatVal w⟩, p1, p2, false, true⟩, Or.inr ?_,
    h1, h2, h3, h4, h5, rfl, ?_⟩
  · simp [Repr.segment, sepBy, argText]
  · simp [Seg.eq, e1, e2, e3, e4, e5, hw.2]

example : NumText "1.5".toList (3 / 2) := ⟨⟨[], "1.5".toList, [], by decide, Or.inl rfl,
  ⟨"1".toList, ".5".toList, by decide, by simp [Digits, IsDigit], Or.inr ⟨"5".toList, by decide, by decide, by simp [Digits, IsDigit]⟩⟩,
  Or.inl rfl⟩, by decide +kernel⟩

/-! ### lengths and colours -/

/-- C110: `repr(l)` is a call of `Length` with a text, which is read as a length with the same unit and the same amount, up to half
a unit of the 12th decimal. -/
theorem C110_length (l : Len ℚ) (hu : UnitText l.units.text) :
    ∃ t s, CallText (Repr.length l) "Length".toList [([], t)] ∧ StrText t s ∧
      (Len.ofString s).units.text = l.units.text ∧ |(Len.ofString s).amount - l.amount| ≤ 1 / (2 * 10 ^ 12) := by
  have h := C13_round_trip l hu
  have hc : ∀ c ∈ l.toString, c ≠ '\'' ∧ c ≠ '\\' ∧ c ≠ '\n' := by
    intro c hc
    rcases List.mem_append.mp hc with hc | hc
    · rcases lengthStr_plain _ c hc with rfl | rfl | hc
      · decide
      · decide
      · refine ⟨?_, ?_, ?_⟩ <;> (rintro rfl; revert hc; unfold IsDigit; decide)
    · have := hu c hc
      refine ⟨?_, ?_, ?_⟩ <;> (rintro rfl; revert this; decide)
  unfold Repr.length
  generalize l.toString = t at *
  refine ⟨'\'' :: (t ++ ['\'']), t, Or.inl ?_, ⟨rfl, hc⟩, h.1, h.2.1⟩
  simp [sepBy, argText]

example : UnitText (Len.ofString "10.25mm".toList : Len ℚ).units.text := by decide +kernel
example : Repr.length ⟨41 / 4, .mm⟩ = "Length('10.25mm')".toList := by decide +kernel

theorem hex_plain (v : ℤ) {t : List Char} (h : Color.hex (some v) = some t) : ∀ c ∈ t, c ≠ '\'' ∧ c ≠ '\\' ∧ c ≠ '\n' := by
  obtain ⟨r1, r2, hr, hr1, hr2, -⟩ := hex2_spec (land_byte v 24).1 (land_byte v 24).2
  obtain ⟨g1, g2, hg, hg1, hg2, -⟩ := hex2_spec (land_byte v 16).1 (land_byte v 16).2
  obtain ⟨b1, b2, hb, hb1, hb2, -⟩ := hex2_spec (land_byte v 8).1 (land_byte v 8).2
  have hav := land_byte v 0
  rw [Int.shiftRight_zero] at hav
  obtain ⟨a1, a2, ha, ha1, ha2, -⟩ := hex2_spec hav.1 hav.2
  have key : ∀ c ∈ '#' :: hexDigits, c ≠ '\'' ∧ c ≠ '\\' ∧ c ≠ '\n' := by decide
  have hin : ∀ c ∈ t, c ∈ '#' :: hexDigits := by
    unfold Color.hex Color.hexa at h
    split at h <;> simp only [Option.some.injEq] at h <;> subst h <;> intro c hc <;>
      simp only [hr, hg, hb, ha, List.mem_cons, List.mem_append, List.not_mem_nil, or_false] at hc <;>
      rcases hc with rfl | hc <;> simp_all only [List.mem_cons, true_or] <;> right <;> grind
  exact fun c hc => key c (hin c hc)

theorem color_some (v : ℤ) : Repr.color (some v) =
    "Color('".toList ++ ((Color.hex (some v)).getD "None".toList ++ ['\'', ')']) := rfl

/-- C110: `repr(c)` of a colour with a value is a call of `Color` with a text, which is read as a colour that equals `c`. -/
theorem C110_color_partial (F : FloatRounding) (pyInt : List Char → Option ℤ) (v : ℤ) :
    ∃ t s w, CallText (Repr.color (some v)) "Color".toList [([], t)] ∧ StrText t s ∧
      Color.parse F pyInt (some s) = .ok w ∧ Color.eq w (some v) = true := by
  obtain ⟨t, u, w, w', h1, h2, h3, h4, _⟩ := C04_hex_round_trip F pyInt v
  have hc := hex_plain v h1
  have e : Repr.color (some v) = "Color('".toList ++ (t ++ ['\'', ')']) :=
    (color_some v).trans (by rw [h1]; rfl)
  rw [e]
  refine ⟨'\'' :: (t ++ ['\'']), t, w, Or.inl ?_, ⟨rfl, hc⟩, h3, h4⟩
  simp [sepBy, argText]

example : Repr.color (some 0x11223344) = "Color('#11223344')".toList := by decide +kernel

/-- C110 is false for a colour without value: `repr(Color(None))` is `Color('None')`, which is black. -/
theorem C110_color_wrong (F : FloatRounding) (pyInt : List Char → Option ℤ) (hi : pyInt "none".toList = none) :
    Repr.color none = "Color('None')".toList ∧
      Color.parse F pyInt (some "None".toList) = .ok (some 0x000000FF) ∧ Color.eq (some 0x000000FF) none = false := by
  refine ⟨by decide, C06_unknown_black F pyInt _ (by decide) ⟨'N', by decide, by decide, by decide, by decide⟩ (by decide)
    (by decide +kernel) (by decide +kernel) ?_, by decide⟩
  exact hi

example : (fun _ => none : List Char → Option ℤ) "none".toList = none := rfl

/-! ### angles -/

theorem fmtF12_shape (x : ℚ) : fmtF12 x =
    (if x < 0 then ['-'] else []) ++ (natText (units12 x / 10 ^ 12) ++ '.' :: fixedDigits 12 (units12 x % 10 ^ 12)) := rfl

/-- `"%.12f" % x` is a number literal of the same value as the text without trailing zeros. -/
theorem fmtF12_number (x : ℚ) : NumText (fmtF12 x) (floatVal (lengthStr x)) := by
  have hfs := fixedDigits_digits 12 (units12 x % 10 ^ 12)
  have hne : fixedDigits 12 (units12 x % 10 ^ 12) ≠ [] := by
    intro h; have := congrArg List.length h; rw [fixedDigits_length] at this; simp at this
  have hval : natVal (fixedDigits 12 (units12 x % 10 ^ 12)) = units12 x % 10 ^ 12 :=
    natVal_fixedDigits _ _ (Nat.mod_lt _ (by norm_num))
  have hlen := fixedDigits_length 12 (units12 x % 10 ^ 12)
  have hnt := natText_digits (units12 x / 10 ^ 12)
  rw [fmtF12_shape, floatVal_lengthStr]
  have hnv := natVal_natText (units12 x / 10 ^ 12)
  generalize units12 x = n at *
  generalize fixedDigits 12 (n % 10 ^ 12) = fs at *
  generalize natText (n / 10 ^ 12) = ip at *
  have hsg : OptSign (if x < 0 then ['-'] else []) := by
    split
    · exact Or.inr (Or.inr rfl)
    · exact Or.inl rfl
  refine ⟨⟨_, ip ++ '.' :: fs, [], by simp, hsg, ⟨ip, '.' :: fs, rfl, hnt, Or.inr ⟨fs, rfl, hne, hfs⟩⟩, Or.inl rfl⟩, ?_⟩
  have hmc : ∀ c ∈ ip ++ '.' :: fs, c ≠ '+' ∧ c ≠ '-' ∧ c ≠ 'e' ∧ c ≠ 'E' := by
    intro c hc
    rcases List.mem_append.mp hc with hc | hc
    · have := digit_not_sign (hnt c hc); tauto
    · rcases List.mem_cons.mp hc with rfl | hc
      · decide
      · have := digit_not_sign (hfs c hc); tauto
  have hmv : mantVal (ip ++ '.' :: fs) = (n : ℚ) / 10 ^ 12 := by
    have hdg : ∀ c ∈ ip, isDig c = true := fun c hc => isDig_iff.mpr (hnt c hc)
    have hdot : isDig '.' = false := by decide
    have e1 : (ip ++ '.' :: fs).takeWhile isDig = ip := by rw [takeWhile_prefix hdg]; simp [hdot]
    have e2 : ((ip ++ '.' :: fs).dropWhile isDig).drop 1 = fs := by rw [dropWhile_prefix hdg]; simp [hdot]
    unfold mantVal
    simp only [e1, e2, hnv, hval, hlen]
    have hdm : (n : ℚ) = 10 ^ 12 * ((n / 10 ^ 12 : ℕ) : ℚ) + ((n % 10 ^ 12 : ℕ) : ℚ) := by
      exact_mod_cast (Nat.div_add_mod n (10 ^ 12)).symm
    conv_rhs => rw [hdm]
    rw [add_div, mul_div_cancel_left₀ _ (by positivity)]
  have hsign : takeSign ((if x < 0 then ['-'] else []) ++ (ip ++ '.' :: fs)) = ((if x < 0 then ['-'] else []), ip ++ '.' :: fs) :=
    takeSign_append hsg fun c hc => by have := hmc c (List.mem_of_mem_head? hc); tauto
  have ht : (ip ++ '.' :: fs).takeWhile (fun c => decide (c ≠ 'e' ∧ c ≠ 'E')) = ip ++ '.' :: fs := by
    have := takeWhile_prefix (r := []) (p := fun c => decide (c ≠ 'e' ∧ c ≠ 'E')) (l := ip ++ '.' :: fs)
      (fun c hc => by have := hmc c hc; simp; tauto)
    simpa using this
  have hd : (ip ++ '.' :: fs).dropWhile (fun c => decide (c ≠ 'e' ∧ c ≠ 'E')) = [] := by
    have := dropWhile_prefix (r := []) (p := fun c => decide (c ≠ 'e' ∧ c ≠ 'E')) (l := ip ++ '.' :: fs)
      (fun c hc => by have := hmc c hc; simp; tauto)
    simpa using this
  unfold floatVal
  simp only [hsign, ht, hd, hmv]
  have hi : intVal (List.drop 1 ([] : List Char)) = 0 := by decide
  rw [hi]
  by_cases hx : x < 0 <;> simp [hx]

/-- C110: `repr(a)` is a call of `Angle` with a number literal, and the angle of this number equals `a`, unless `a` is next to
a multiple of a full turn. -/
theorem C110_angle_partial (tau : ℚ) (ht : 0 < tau) (x : ℚ)
    (h1 : 1 / (2 * 10 ^ 12) ≤ x - tau * ⌊x / tau⌋) (h2 : x - tau * ⌊x / tau⌋ < tau - 1 / (2 * 10 ^ 12)) :
    ∃ t y, CallText (Repr.angle x) "Angle".toList [([], t)] ∧ NumText t y ∧ Angle.eq tau y x = true := by
  refine ⟨fmtF12 x, _, Or.inl ?_, fmtF12_number x, ?_⟩
  · simp [Repr.angle, sepBy, argText]
  · have h := lengthStr_close x
    generalize floatVal (lengthStr x) = y at *
    rw [abs_le] at h
    have hf : ⌊y / tau⌋ = ⌊x / tau⌋ := by
      rw [Int.floor_eq_iff]
      constructor
      · rw [le_div_iff₀ ht]; linarith
      · rw [div_lt_iff₀ ht]; linarith
    simp only [Angle.eq, Angle.pyMod, hf, decide_eq_true_eq]
    rw [abs_le]
    constructor <;> linarith

example : (1 : ℚ) / (2 * 10 ^ 12) ≤ 1 - (44 / 7) * ⌊(1 : ℚ) / (44 / 7)⌋ ∧ 1 - (44 / 7) * ⌊(1 : ℚ) / (44 / 7)⌋ < 44 / 7 - 1 / (2 * 10 ^ 12) := by
  rw [show ⌊(1 : ℚ) / (44 / 7)⌋ = 0 by norm_num]; norm_num

/-- C110 is false next to a full turn: with the float `tau`, the angle `tau - 2^-50` is printed as a number above `tau`. -/
theorem C110_angle_wrong :
    Repr.angle (884279719003555 / 2 ^ 47 - 1 / 2 ^ 50) = "Angle(6.283185307180)".toList ∧
      Angle.eq (884279719003555 / 2 ^ 47 : ℚ) (floatVal "6.283185307180".toList) (884279719003555 / 2 ^ 47 - 1 / 2 ^ 50) = false := by
  constructor <;> decide +kernel

end Svgio.Props
