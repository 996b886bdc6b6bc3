import Verif.Lemmas.TransformText
import Verif.Props.Matrix
import Verif.Props.Angle
import Verif.Props.LengthText

/-! What a transform list does to a matrix whose translation is made of numbers, or of lengths of one unit. -/

namespace Svgio.LMat

open Svgio Spec Props

/-- Translations that can be computed with before they are resolved: `R` and `S` say what number a translation will
be, along x and along y. -/
structure Linear (H : Val ℝ → Prop) (R S : Val ℝ → ℝ) : Prop where
  zero : H (.num 0) ∧ R (.num 0) = 0 ∧ S (.num 0) = 0
  smul : ∀ v x, H v → H (v.smul x) ∧ R (v.smul x) = x * R v ∧ S (v.smul x) = x * S v
  add : ∀ v w, H v → H w → ∃ z, v.add w = .ok z ∧ H z ∧ R z = R v + R w ∧ S z = S v + S w
  neg : ∀ v, H v → H v.neg ∧ R v.neg = - R v ∧ S v.neg = - S v
  value : ∀ v, H v → ∃ w, v.value {} = .ok w ∧ H w ∧ R w = R v ∧ S w = S v
  isZero : ∀ v, H v → v.isZero = true → R v = 0 ∧ S v = 0

/-- the matrix of numbers that `m` stands for -/
def denote (R S : Val ℝ → ℝ) (m : LMat ℝ) : Mat ℝ := ⟨m.a, m.b, m.c, m.d, R m.e, S m.f⟩

/-- x and y are resolved alike, or not mixed -/
def Mix (H : Val ℝ → Prop) (R S : Val ℝ → ℝ) (b c : ℝ) : Prop := (∀ v, H v → R v = S v) ∨ (b = 0 ∧ c = 0)

/-- what is kept of a matrix while a list is read -/
structure Good (H : Val ℝ → Prop) (R S : Val ℝ → ℝ) (m : LMat ℝ) : Prop where
  e : H m.e
  f : H m.f
  mix : Mix H R S m.b m.c

theorem add_smul_zero (x : ℝ) (v : Val ℝ) : ∃ w, Val.add (.num x) (v.smul 0) = .ok w ∧ w.toFloat = x := by
  cases v with
  | num y => exact ⟨_, rfl, by simp [Val.toFloat]⟩
  | len l =>
    by_cases hu : l.units = .none
    · refine ⟨.len ⟨0 + x, .none⟩, ?_, by simp [Val.toFloat, Len.toFloat]⟩
      simp [Val.add, Val.smul, Len.mulNum, Len.add, hu, Except.map]
    · refine ⟨.len ⟨x, .none⟩, ?_, by simp [Val.toFloat, Len.toFloat]⟩
      simp [Val.add, Val.smul, Len.mulNum, Len.add, hu, Except.map]

section
variable {H : Val ℝ → Prop} {R S : Val ℝ → ℝ}

theorem multiply_ok (L : Linear H R S) {m s : LMat ℝ} (hme : H m.e) (hmf : H m.f) (hs : Good H R S s) :
    ∃ r, multiply m s = .ok r ∧ (H r.e ∧ H r.f ∧ (Mix H R S m.b m.c → Mix H R S r.b r.c)) ∧ denote R S r = Mat.multiply (denote R S m) (denote R S s) := by
  obtain ⟨a, ha, ha'⟩ := add_smul_zero (s.a * m.a + s.c * m.b) s.e
  obtain ⟨c, hc, hc'⟩ := add_smul_zero (s.a * m.c + s.c * m.d) s.e
  obtain ⟨b, hb, hb'⟩ := add_smul_zero (s.b * m.a + s.d * m.b) s.f
  obtain ⟨d, hd, hd'⟩ := add_smul_zero (s.b * m.c + s.d * m.d) s.f
  obtain ⟨e1, he1, He1, Re1, -⟩ := L.add _ _ (L.smul m.e s.a hme).1 (L.smul m.f s.c hmf).1
  obtain ⟨e2, he2, He2, Re2, -⟩ := L.add _ _ He1 (L.smul s.e 1 hs.e).1
  obtain ⟨f1, hf1, Hf1, -, Sf1⟩ := L.add _ _ (L.smul m.e s.b hme).1 (L.smul m.f s.d hmf).1
  obtain ⟨f2, hf2, Hf2, -, Sf2⟩ := L.add _ _ Hf1 (L.smul s.f 1 hs.f).1
  rw [(L.smul m.e s.a hme).2.1, (L.smul m.f s.c hmf).2.1] at Re1
  rw [(L.smul s.e 1 hs.e).2.1] at Re2
  rw [(L.smul m.e s.b hme).2.2, (L.smul m.f s.d hmf).2.2] at Sf1
  rw [(L.smul s.f 1 hs.f).2.2] at Sf2
  refine ⟨⟨a.toFloat, b.toFloat, c.toFloat, d.toFloat, e2, f2⟩, ?_, ⟨He2, Hf2, ?_⟩, ?_⟩
  · simp only [multiply, ha, hc, hb, hd, he1, he2, hf1, hf2, bind, Except.bind, pure, Except.pure]
  · intro hmix
    rcases hmix with h | ⟨h1, h2⟩
    · exact Or.inl h
    · rcases hs.mix with h | ⟨h3, h4⟩
      · exact Or.inl h
      · right; simp only [hb', hc', h1, h2, h3, h4]; constructor <;> ring
  · have mixe : s.c * R m.f = s.c * S m.f := by
      rcases hs.mix with h | ⟨-, h4⟩
      · rw [h _ hmf]
      · rw [h4]; ring
    have mixf : s.b * S m.e = s.b * R m.e := by
      rcases hs.mix with h | ⟨h3, -⟩
      · rw [h _ hme]
      · rw [h3]; ring
    ext <;> simp only [denote, Mat.multiply, ha', hb', hc', hd', Re2, Re1, Sf2, Sf1]
    · ring
    · ring
    · ring
    · ring
    · rw [mixe]; ring
    · rw [mixf]; ring

theorem multiply_good (L : Linear H R S) {m s : LMat ℝ} (hm : Good H R S m) (hs : Good H R S s) :
    ∃ r, multiply m s = .ok r ∧ Good H R S r ∧ denote R S r = Mat.multiply (denote R S m) (denote R S s) := by
  obtain ⟨r, h1, ⟨h2, h3, h4⟩, h5⟩ := multiply_ok L hm.e hm.f hs
  exact ⟨r, h1, ⟨h2, h3, h4 hm.mix⟩, h5⟩

theorem good_ofMat (L : Linear H R S) {t : Mat ℝ} (he : t.e = 0) (hf : t.f = 0) (hx : Mix H R S t.b t.c) :
    Good H R S (ofMat t) ∧ denote R S (ofMat t) = t := by
  refine ⟨⟨?_, ?_, hx⟩, ?_⟩
  · rw [ofMat, he]; exact L.zero.1
  · rw [ofMat, hf]; exact L.zero.1
  · ext <;> simp [denote, ofMat, he, hf, L.zero]

theorem make_good (L : Linear H R S) {a b c d : ℝ} {e f : Val ℝ} (he : H e) (hf : H f) (hx : Mix H R S b c) :
    ∃ r, make a b c d e f = .ok r ∧ Good H R S r ∧ denote R S r = ⟨a, b, c, d, R e, S f⟩ := by
  obtain ⟨e', he', He, Re, -⟩ := L.value e he
  obtain ⟨f', hf', Hf, -, Sf⟩ := L.value f hf
  refine ⟨⟨a, b, c, d, e', f'⟩, ?_, ⟨He, Hf, hx⟩, ?_⟩
  · have e1 : (RenderCtx.x ({} : RenderCtx ℝ)) = {} := rfl
    have e2 : (RenderCtx.y ({} : RenderCtx ℝ)) = {} := rfl
    simp only [make, render, e1, e2, he', hf', bind, Except.bind, pure, Except.pure]
  · simp [denote, Re, Sf]

theorem preTranslate_good (L : Linear H R S) {m : LMat ℝ} (hm : Good H R S m) {x y : Val ℝ} (hx : H x) (hy : H y) :
    ∃ r, preTranslate m x y = .ok r ∧ Good H R S r ∧
      denote R S r = Mat.preTranslate (denote R S m) (R x) (S y) := by
  obtain ⟨t, ht, gt, dt⟩ := make_good L (a := 1) (b := 0) (c := 0) (d := 1) hx hy (Or.inr ⟨rfl, rfl⟩)
  obtain ⟨r, hr, gr, dr⟩ := multiply_good L gt hm
  refine ⟨r, ?_, gr, ?_⟩
  · simp only [preTranslate, preCat, ht, bind, Except.bind, hr]
  · rw [dr, dt]; rfl

theorem preAbout_good (L : Linear H R S) {m : LMat ℝ} (hm : Good H R S m) {t : Mat ℝ} (he : t.e = 0) (hf : t.f = 0)
    (ht : Mix H R S t.b t.c) {x y : Val ℝ} (hx : H x) (hy : H y) :
    ∃ r, preAbout m t x y = .ok r ∧ Good H R S r ∧ ∀ p, Mat.pointInMatrixSpace (denote R S r) p =
      Mat.pointInMatrixSpace (denote R S m) (about t.a t.b t.c t.d (R x) (S y) p) := by
  obtain ⟨gt, dt⟩ := good_ofMat L he hf ht
  by_cases hz : x.isZero = true ∧ y.isZero = true
  · obtain ⟨r, hr, gr, dr⟩ := multiply_good L gt hm
    refine ⟨r, by rw [preAbout, if_pos hz]; exact hr, gr, fun p => ?_⟩
    rw [dr, dt, (L.isZero x hx hz.1).1, (L.isZero y hy hz.2).2]
    have := preAbout_apply (denote R S m) t none none p he hf
    simpa [Mat.preAbout, Mat.preCat] using this
  · obtain ⟨m1, h1, g1, d1⟩ := preTranslate_good L hm hx hy
    obtain ⟨m2, h2, g2, d2⟩ := multiply_good L gt g1
    obtain ⟨m3, h3, g3, d3⟩ := preTranslate_good L g2 (L.neg x hx).1 (L.neg y hy).1
    refine ⟨m3, ?_, g3, fun p => ?_⟩
    · simp only [preAbout, if_neg hz, preCat, h1, h2, h3, bind, Except.bind]
    · rw [d3, d2, d1, dt, (L.neg x hx).2.1, (L.neg y hy).2.2]
      simp only [Mat.preTranslate, Mat.preCat, point_multiply]
      congr 1
      ext <;> simp [Mat.pointInMatrixSpace, about, Mat.translate, he, hf] <;> ring

end

/-! ### parameters -/

theorem unitTexts_letters {u : List Char} (h : u ∈ unitTexts) : UnitText u := by
  have : ∀ u ∈ unitTexts, UnitText u := by decide
  exact this u h

theorem ofString_param {n u : List Char} (hn : IsNumber n) (hu : u ∈ unitTexts) :
    Len.ofString (n ++ u) = ⟨floatVal n, Units.ofText u⟩ := by
  have hs : Stops n (u ++ []) := stops_unit (unitTexts_letters hu) (by simp)
  have := searchLength_found (pre := []) (rest := []) hn hs (unitTexts_letters hu) (by simp) (by
    intro p q n r h hne; simp at h; exact absurd h.2 hne)
  rw [List.nil_append, List.append_nil] at this
  simp [Len.ofString, this]

theorem lengthParam_eq {n u : List Char} (hn : IsNumber n) (hu : u ∈ unitTexts) :
    lengthParam (n ++ u) = Len.value {} ⟨num n, Units.ofText u⟩ := by
  simp only [lengthParam, ofString_param hn hu]; rfl

theorem floatParam_eq {n : List Char} (hn : IsNumber n) : floatParam n = .ok (num n) := by
  simp [floatParam, Props.floatOf_number hn, Except.map, num]

theorem lengthParam_plain {n : List Char} (hn : IsNumber n) : lengthParam n = .ok (.num (num n)) := by
  have := lengthParam_eq hn (u := []) (by decide)
  rw [List.append_nil] at this
  rw [this]
  rfl

theorem angleParam_eq {p : Param} (hn : IsNumber p.1) {θ : ℝ} (h : angle p = some θ) :
    angleParam (p.1 ++ p.2) = .ok θ := by
  obtain ⟨n, u⟩ := p
  have hp := Props.C23_parse (2 * Real.pi) n
  simp only [angle] at h
  simp only [angleParam]
  split at h
  · rename_i hu
    injection h with h
    rcases hu with rfl | rfl
    · obtain ⟨-, -, -, -, -, h6⟩ := hp [] hn
      show Angle.parse (2 * Real.pi) (n ++ []) = _
      rw [List.append_nil, h6, Angle.ofDegrees, ← h]
      congr 1; simp only [num]; ring
    · obtain ⟨h1, -⟩ := hp "deg".toList hn
      rw [h1 (by decide), Angle.ofDegrees, ← h]
      congr 1; simp only [num]; ring
  · split at h
    · rename_i hu; subst hu
      injection h with h
      obtain ⟨-, h1, -⟩ := hp "grad".toList hn
      rw [h1 (by decide), Angle.ofGradians, ← h]
      congr 1; simp only [num]; ring
    · split at h
      · rename_i hu; subst hu
        injection h with h
        obtain ⟨-, -, h1, -⟩ := hp "rad".toList hn
        rw [h1 (by decide), Angle.ofRadians, ← h]; rfl
      · split at h
        · rename_i hu; subst hu
          injection h with h
          obtain ⟨-, -, -, h1, -⟩ := hp "turn".toList hn
          rw [h1 (by decide), Angle.ofTurns, ← h]
          congr 1; simp only [num]; ring
        · split at h
          · rename_i hu; subst hu
            injection h with h
            obtain ⟨-, -, -, -, h1, -⟩ := hp "%".toList hn
            show Angle.parse (2 * Real.pi) (n ++ ['%']) = _
            rw [h1, Angle.ofTurns, ← h]
            congr 1; simp only [num]; ring
          · simp at h

/-! ### one function -/

/-- parameters as they are found in the text -/
def texts (ps : List Param) : List (List Char) := ps.map (fun p => p.1 ++ p.2)

/-- the lengths of parameters that `lx` and `ly` know are read as translations of that size -/
structure Reads (H : Val ℝ → Prop) (R S : Val ℝ → ℝ) (lx ly : Param → Option ℝ) : Prop where
  x : ∀ p x, IsNumber p.1 → p.2 ∈ unitTexts → lx p = some x →
    ∃ v, lengthParam (p.1 ++ p.2) = .ok v ∧ H v ∧ R v = x
  y : ∀ p y, IsNumber p.1 → p.2 ∈ unitTexts → ly p = some y →
    ∃ v, lengthParam (p.1 ++ p.2) = .ok v ∧ H v ∧ S v = y

/-- functions that keep x and y apart -/
def diagonalNames : List (List Char) :=
  ["translate".toList, "translatex".toList, "translatey".toList, "scale".toList, "scalex".toList, "scaley".toList]

section
variable {H : Val ℝ → Prop} {R S : Val ℝ → ℝ} {lx ly : Param → Option ℝ}

theorem reads_plain_x (hr : Reads H R S lx ly) {n : List Char} (hn : IsNumber n) {x : ℝ} (h : lx (n, []) = some x) :
    H (.num (num n)) ∧ R (.num (num n)) = x := by
  obtain ⟨v, hv, Hv, Rv⟩ := hr.x (n, []) x hn (show ([] : List Char) ∈ unitTexts by decide) h
  rw [show ((n, []) : Param).1 ++ ((n, []) : Param).2 = n by simp, lengthParam_plain hn] at hv
  injection hv with hv; subst hv
  exact ⟨Hv, Rv⟩

theorem reads_plain_y (hr : Reads H R S lx ly) {n : List Char} (hn : IsNumber n) {y : ℝ} (h : ly (n, []) = some y) :
    H (.num (num n)) ∧ S (.num (num n)) = y := by
  obtain ⟨v, hv, Hv, Rv⟩ := hr.y (n, []) y hn (show ([] : List Char) ∈ unitTexts by decide) h
  rw [show ((n, []) : Param).1 ++ ((n, []) : Param).2 = n by simp, lengthParam_plain hn] at hv
  injection hv with hv; subst hv
  exact ⟨Hv, Rv⟩

theorem pivot_good (L : Linear H R S) (hr : Reads H R S lx ly) {m : LMat ℝ} (hm : Good H R S m) {t : Mat ℝ}
    (he : t.e = 0) (hf : t.f = 0) (ht : Mix H R S t.b t.c) {ps : List Param} {x y : ℝ} (h : Pivot lx ly ps x y)
    (hp : ∀ p ∈ ps, IsNumber p.1 ∧ p.2 ∈ unitTexts) :
    ∃ r, pivot m t (texts ps) = .ok r ∧ Good H R S r ∧ ∀ p, Mat.pointInMatrixSpace (denote R S r) p =
      Mat.pointInMatrixSpace (denote R S m) (about t.a t.b t.c t.d x y p) := by
  cases h with
  | none =>
    obtain ⟨r, h1, h2, h3⟩ := preAbout_good L hm he hf ht L.zero.1 L.zero.1
    refine ⟨r, h1, h2, ?_⟩
    rw [L.zero.2.1, L.zero.2.2] at h3
    exact h3
  | @x p x hx =>
    obtain ⟨v, hv, Hv, Rv⟩ := hr.x p x (hp p (by simp)).1 (hp p (by simp)).2 hx
    obtain ⟨r, h1, h2, h3⟩ := preAbout_good L hm he hf ht Hv L.zero.1
    refine ⟨r, ?_, h2, ?_⟩
    · simp only [texts, List.map_cons, List.map_nil, pivot, hv, bind, Except.bind, h1]
    · rw [Rv, L.zero.2.2] at h3; exact h3
  | @xy p q x y hx hy =>
    obtain ⟨v, hv, Hv, Rv⟩ := hr.x p x (hp p (by simp)).1 (hp p (by simp)).2 hx
    obtain ⟨w, hw, Hw, Sw⟩ := hr.y q y (hp q (by simp)).1 (hp q (by simp)).2 hy
    obtain ⟨r, h1, h2, h3⟩ := preAbout_good L hm he hf ht Hv Hw
    refine ⟨r, ?_, h2, ?_⟩
    · simp only [texts, List.map_cons, List.map_nil, pivot, hv, hw, bind, Except.bind, h1]
    · rw [Rv, Sw] at h3; exact h3

/-- **One function** is applied before what was there. -/
theorem step_good (L : Linear H R S) (hr : Reads H R S lx ly) {m : LMat ℝ} (hm : Good H R S m)
    {f : List Char × List Param} {φ : Pt ℝ → Pt ℝ} (h : Acts lx ly f φ)
    (hp : ∀ p ∈ f.2, IsNumber p.1 ∧ p.2 ∈ unitTexts) (hd : (∀ v, H v → R v = S v) ∨ f.1 ∈ diagonalNames) :
    ∃ r, step m f.1 (texts f.2) = .ok r ∧ Good H R S r ∧ ∀ p, Mat.pointInMatrixSpace (denote R S r) p =
      Mat.pointInMatrixSpace (denote R S m) (φ p) := by
  have scalemix : Mix H R S 0 0 := Or.inr ⟨rfl, rfl⟩
  have hrot : ∀ θ x y q, about (Mat.rotate θ).a (Mat.rotate θ).b (Mat.rotate θ).c (Mat.rotate θ).d x y q =
      rotateAbout θ x y q := by
    intro θ x y q; ext <;> simp [about, rotateAbout, Mat.rotate] <;> ring
  have hskew : ∀ α β x y q, about (Mat.skew α β).a (Mat.skew α β).b (Mat.skew α β).c (Mat.skew α β).d x y q =
      skewAbout α β x y q := by
    intro α β x y q; ext <;> simp [about, skewAbout, Mat.skew] <;> ring
  cases h with
  | @matrix a b c d e f x y hx hy =>
    have same : ∀ v, H v → R v = S v := by
      rcases hd with h | h
      · exact h
      · exact absurd h (show "matrix".toList ∉ diagonalNames by decide)
    obtain ⟨He, Re⟩ := reads_plain_x hr (hp (e, []) (by simp)).1 hx
    obtain ⟨Hf, Sf⟩ := reads_plain_y hr (hp (f, []) (by simp)).1 hy
    obtain ⟨t, ht, gt, dt⟩ := make_good L (a := num a) (b := num b) (c := num c) (d := num d) He Hf (Or.inl same)
    obtain ⟨r, h1, h2, h3⟩ := multiply_good L gt hm
    refine ⟨r, ?_, h2, fun p => ?_⟩
    · have fa := floatParam_eq (hp (a, []) (by simp)).1
      have fb := floatParam_eq (hp (b, []) (by simp)).1
      have fc := floatParam_eq (hp (c, []) (by simp)).1
      have fd := floatParam_eq (hp (d, []) (by simp)).1
      have fe := floatParam_eq (hp (e, []) (by simp)).1
      have ff := floatParam_eq (hp (f, []) (by simp)).1
      simp only at fa fb fc fd fe ff
      simp [step, texts, List.mapM_cons, fa, fb, fc, fd, fe, ff, bind, Except.bind, pure, Except.pure, ht, preCat, h1]
    · rw [h3, dt, point_multiply, Re, Sf]
      congr 1
      ext <;> simp [Mat.pointInMatrixSpace] <;> ring
  | @translate ps x y h hne =>
    cases h with
    | none => exact absurd rfl hne
    | @x p x hx =>
      obtain ⟨v, hv, Hv, Rv⟩ := hr.x p x (hp p (by simp)).1 (hp p (by simp)).2 hx
      obtain ⟨r, h1, h2, h3⟩ := preTranslate_good L hm Hv L.zero.1
      refine ⟨r, ?_, h2, fun p => ?_⟩
      · simp [step, texts, hv, bind, Except.bind, h1]
      · rw [h3, Rv, L.zero.2.2, Mat.preTranslate, Mat.preCat, point_multiply]
        congr 1; ext <;> simp [Mat.pointInMatrixSpace, Mat.translate]
    | @xy p q x y hx hy =>
      obtain ⟨v, hv, Hv, Rv⟩ := hr.x p x (hp p (by simp)).1 (hp p (by simp)).2 hx
      obtain ⟨w, hw, Hw, Sw⟩ := hr.y q y (hp q (by simp)).1 (hp q (by simp)).2 hy
      obtain ⟨r, h1, h2, h3⟩ := preTranslate_good L hm Hv Hw
      refine ⟨r, ?_, h2, fun p => ?_⟩
      · simp [step, texts, hv, hw, bind, Except.bind, h1]
      · rw [h3, Rv, Sw, Mat.preTranslate, Mat.preCat, point_multiply]
        congr 1; ext <;> simp [Mat.pointInMatrixSpace, Mat.translate]
  | @translateX p x hx =>
    obtain ⟨v, hv, Hv, Rv⟩ := hr.x p x (hp p (by simp)).1 (hp p (by simp)).2 hx
    obtain ⟨r, h1, h2, h3⟩ := preTranslate_good L hm Hv L.zero.1
    refine ⟨r, ?_, h2, fun p => ?_⟩
    · simp [step, texts, hv, bind, Except.bind, h1]
    · rw [h3, Rv, L.zero.2.2, Mat.preTranslate, Mat.preCat, point_multiply]
      congr 1; ext <;> simp [Mat.pointInMatrixSpace, Mat.translate]
  | @translateY p y hy =>
    obtain ⟨v, hv, Hv, Sv⟩ := hr.y p y (hp p (by simp)).1 (hp p (by simp)).2 hy
    obtain ⟨r, h1, h2, h3⟩ := preTranslate_good L hm L.zero.1 Hv
    refine ⟨r, ?_, h2, fun p => ?_⟩
    · simp [step, texts, hv, bind, Except.bind, h1]
    · rw [h3, Sv, L.zero.2.1, Mat.preTranslate, Mat.preCat, point_multiply]
      congr 1; ext <;> simp [Mat.pointInMatrixSpace, Mat.translate]
  | @scale s =>
    have fs := floatParam_eq (hp (s, []) (by simp)).1
    simp only at fs
    obtain ⟨r, h1, h2, h3⟩ := preAbout_good L hm (t := Mat.scale (num s) none) rfl rfl scalemix L.zero.1 L.zero.1
    refine ⟨r, ?_, h2, fun p => ?_⟩
    · simp [step, texts, fs, bind, Except.bind, pure, Except.pure, h1]
    · rw [h3, L.zero.2.1, L.zero.2.2]; congr 1; ext <;> simp [about, scaleAbout, Mat.scale]
  | @scaleXY s t ps x y h hu =>
    have fs := floatParam_eq (hp (s, []) (by simp)).1
    have ft := floatParam_eq (hp (t, []) (by simp)).1
    simp only at fs ft
    cases h with
    | none =>
      obtain ⟨r, h1, h2, h3⟩ :=
        preAbout_good L hm (t := Mat.scale (num s) (some (num t))) rfl rfl scalemix L.zero.1 L.zero.1
      refine ⟨r, ?_, h2, fun p => ?_⟩
      · simp [step, texts, fs, ft, bind, Except.bind, pure, Except.pure, h1]
      · rw [h3, L.zero.2.1, L.zero.2.2]; congr 1; ext <;> simp [about, scaleAbout, Mat.scale]
    | @x p x hx =>
      obtain ⟨n, u⟩ := p
      obtain rfl : u = [] := hu (n, u) (by simp)
      have hn := (hp (n, []) (by simp)).1
      obtain ⟨He, Re⟩ := reads_plain_x hr hn hx
      have fn := floatParam_eq hn
      obtain ⟨r, h1, h2, h3⟩ :=
        preAbout_good L hm (t := Mat.scale (num s) (some (num t))) rfl rfl scalemix He L.zero.1
      refine ⟨r, ?_, h2, fun p => ?_⟩
      · simp only at fn
        simp [step, texts, fs, ft, fn, bind, Except.bind, pure, Except.pure, h1]
      · simp only at Re
        rw [h3, Re, L.zero.2.2]; congr 1; ext <;> simp [about, scaleAbout, Mat.scale]
    | @xy p q x y hx hy =>
      obtain ⟨n, u⟩ := p
      obtain ⟨k, w⟩ := q
      obtain rfl : u = [] := hu (n, u) (by simp)
      obtain rfl : w = [] := hu (k, w) (by simp)
      have hn := (hp (n, []) (by simp)).1
      have hk := (hp (k, []) (by simp)).1
      obtain ⟨He, Re⟩ := reads_plain_x hr hn hx
      obtain ⟨Hf, Sf⟩ := reads_plain_y hr hk hy
      have fn := floatParam_eq hn
      have fk := floatParam_eq hk
      obtain ⟨r, h1, h2, h3⟩ :=
        preAbout_good L hm (t := Mat.scale (num s) (some (num t))) rfl rfl scalemix He Hf
      refine ⟨r, ?_, h2, fun p => ?_⟩
      · simp only at fn fk h1
        simp [step, texts, fs, ft, fn, fk, bind, Except.bind, pure, Except.pure, h1]
      · simp only at Re Sf h3
        rw [h3, Re, Sf]; congr 1; ext <;> simp [about, scaleAbout, Mat.scale]
  | @scaleX s =>
    have fs := floatParam_eq (hp (s, []) (by simp)).1
    simp only at fs
    obtain ⟨r, h1, h2, h3⟩ := preAbout_good L hm (t := Mat.scale (num s) (some 1)) rfl rfl scalemix L.zero.1 L.zero.1
    refine ⟨r, ?_, h2, fun p => ?_⟩
    · simp [step, texts, fs, bind, Except.bind, h1]
    · rw [h3, L.zero.2.1, L.zero.2.2]; congr 1; ext <;> simp [about, scaleAbout, Mat.scale]
  | @scaleY s =>
    have fs := floatParam_eq (hp (s, []) (by simp)).1
    simp only at fs
    obtain ⟨r, h1, h2, h3⟩ := preAbout_good L hm (t := Mat.scale 1 (some (num s))) rfl rfl scalemix L.zero.1 L.zero.1
    refine ⟨r, ?_, h2, fun p => ?_⟩
    · simp [step, texts, fs, bind, Except.bind, h1]
    · rw [h3, L.zero.2.1, L.zero.2.2]; congr 1; ext <;> simp [about, scaleAbout, Mat.scale]
  | @rotate a ps θ x y ha hpv =>
    have same : ∀ v, H v → R v = S v := by
      rcases hd with h | h
      · exact h
      · exact absurd h (show "rotate".toList ∉ diagonalNames by decide)
    have hθ := angleParam_eq (hp a (by simp)).1 ha
    obtain ⟨r, h1, h2, h3⟩ := pivot_good L hr hm (t := Mat.rotate θ) rfl rfl (Or.inl same) hpv
      (fun p h => hp p (by simp [h]))
    refine ⟨r, ?_, h2, fun p => by rw [h3, hrot]⟩
    simp only [texts] at h1
    simp [step, texts, hθ, bind, Except.bind, h1]
  | @skew a b ps α β x y ha hb hpv =>
    have same : ∀ v, H v → R v = S v := by
      rcases hd with h | h
      · exact h
      · exact absurd h (show "skew".toList ∉ diagonalNames by decide)
    have hα := angleParam_eq (hp a (by simp)).1 ha
    have hβ := angleParam_eq (hp b (by simp)).1 hb
    obtain ⟨r, h1, h2, h3⟩ := pivot_good L hr hm (t := Mat.skew α β) rfl rfl (Or.inl same) hpv
      (fun p h => hp p (by simp [h]))
    refine ⟨r, ?_, h2, fun p => by rw [h3, hskew]⟩
    simp only [texts] at h1
    simp [step, texts, hα, hβ, bind, Except.bind, h1]
  | @skewX a ps α x y ha hpv =>
    have same : ∀ v, H v → R v = S v := by
      rcases hd with h | h
      · exact h
      · exact absurd h (show "skewx".toList ∉ diagonalNames by decide)
    have hα := angleParam_eq (hp a (by simp)).1 ha
    obtain ⟨r, h1, h2, h3⟩ := pivot_good L hr hm (t := Mat.skew α 0) rfl rfl (Or.inl same) hpv
      (fun p h => hp p (by simp [h]))
    refine ⟨r, ?_, h2, fun p => by rw [h3, hskew]⟩
    simp only [texts] at h1
    simp [step, texts, hα, bind, Except.bind, h1]
  | @skewY a ps β x y ha hpv =>
    have same : ∀ v, H v → R v = S v := by
      rcases hd with h | h
      · exact h
      · exact absurd h (show "skewy".toList ∉ diagonalNames by decide)
    have hβ := angleParam_eq (hp a (by simp)).1 ha
    obtain ⟨r, h1, h2, h3⟩ := pivot_good L hr hm (t := Mat.skew 0 β) rfl rfl (Or.inl same) hpv
      (fun p h => hp p (by simp [h]))
    refine ⟨r, ?_, h2, fun p => by rw [h3, hskew]⟩
    simp only [texts] at h1
    simp [step, texts, hβ, bind, Except.bind, h1]

theorem paramsText_numbers {ps : List Param} {s : List Char} (h : ParamsText ps s) :
    ∀ p ∈ ps, IsNumber p.1 ∧ p.2 ∈ unitTexts := by
  induction h with
  | nil => simp
  | cons _ hn _ hu _ _ ih =>
    intro p hp
    rcases List.mem_cons.1 hp with rfl | hp
    · exact ⟨hn, hu⟩
    · exact ih p hp

theorem functionsText_numbers {fs : List (List Char × List Param)} {s : List Char} (h : FunctionsText fs s) :
    ∀ f ∈ fs, ∀ p ∈ f.2, IsNumber p.1 ∧ p.2 ∈ unitTexts := by
  induction h with
  | nil => simp
  | cons _ _ _ hp _ _ ih =>
    intro f hf
    rcases List.mem_cons.1 hf with rfl | hf
    · exact paramsText_numbers hp
    · exact ih f hf

/-- **A list of functions.** -/
theorem run_good (L : Linear H R S) (hr : Reads H R S lx ly) {fs : List (List Char × List Param)}
    {φs : List (Pt ℝ → Pt ℝ)} (h : List.Forall₂ (Acts lx ly) fs φs) :
    ∀ {m : LMat ℝ}, Good H R S m → (∀ f ∈ fs, ∀ p ∈ f.2, IsNumber p.1 ∧ p.2 ∈ unitTexts) →
      ((∀ v, H v → R v = S v) ∨ ∀ f ∈ fs, f.1 ∈ diagonalNames) →
    ∃ r, (fs.map (fun f => (f.1, texts f.2))).foldlM (fun m f => step m f.1 f.2) m = .ok r ∧ Good H R S r ∧
      ∀ p, Mat.pointInMatrixSpace (denote R S r) p = Mat.pointInMatrixSpace (denote R S m) (compose φs p) := by
  induction h with
  | nil => intro m hm _ _; exact ⟨m, rfl, hm, fun _ => rfl⟩
  | @cons f φ fs φs hf hfs ih =>
    intro m hm hp hd
    obtain ⟨m1, h1, g1, p1⟩ := step_good L hr hm hf (hp f (by simp)) (by
      rcases hd with h | h
      · exact Or.inl h
      · exact Or.inr (h f (by simp)))
    obtain ⟨r, h2, g2, p2⟩ := ih g1 (fun f hf => hp f (by simp [hf])) (by
      rcases hd with h | h
      · exact Or.inl h
      · exact Or.inr (fun f hf => h f (by simp [hf])))
    refine ⟨r, ?_, g2, fun p => ?_⟩
    · rw [List.map_cons, List.foldlM_cons]
      simp only [h1, bind, Except.bind]
      exact h2
    · rw [p2, p1]; rfl

theorem parse_good (L : Linear H R S) (hr : Reads H R S lx ly) {fs : List (List Char × List Param)}
    {φs : List (Pt ℝ → Pt ℝ)} {s t : List Char} (ht : FunctionsText fs t) (hs : s.map Char.toLower = t)
    (h : List.Forall₂ (Acts lx ly) fs φs) {m : LMat ℝ} (hm : Good H R S m)
    (hd : (∀ v, H v → R v = S v) ∨ ∀ f ∈ fs, f.1 ∈ diagonalNames) :
    ∃ r, parse m s = .ok r ∧ Good H R S r ∧
      ∀ p, Mat.pointInMatrixSpace (denote R S r) p = Mat.pointInMatrixSpace (denote R S m) (compose φs p) := by
  obtain ⟨r, h1, h2, h3⟩ := run_good L hr h hm (functionsText_numbers ht) hd
  refine ⟨r, ?_, h2, h3⟩
  rw [parse, Transform.functions_found ht hs]
  exact h1

end

end Svgio.LMat
