import Verif.Lemmas.TransformRun

/-!
Transform lists (C30) and translations that are resolved late (C31).
-/

namespace Svgio.Props

open Svgio Spec LMat

/-! ### C30 -/

/-- translations made of numbers -/
def Numeric (v : Val ℝ) : Prop := ∃ x, v = .num x

theorem linear_numeric : Linear Numeric Val.toFloat Val.toFloat where
  zero := ⟨⟨0, rfl⟩, rfl, rfl⟩
  smul := by rintro _ x ⟨y, rfl⟩; exact ⟨⟨_, rfl⟩, rfl, rfl⟩
  add := by rintro _ _ ⟨x, rfl⟩ ⟨y, rfl⟩; exact ⟨_, rfl, ⟨_, rfl⟩, rfl, rfl⟩
  neg := by rintro _ ⟨x, rfl⟩; exact ⟨⟨_, rfl⟩, rfl, rfl⟩
  value := by rintro _ ⟨x, rfl⟩; exact ⟨_, rfl, ⟨_, rfl⟩, rfl, rfl⟩
  isZero := by rintro _ ⟨x, rfl⟩ h; simpa [Val.isZero, Val.toFloat] using h

theorem reads_pixels : Reads Numeric Val.toFloat Val.toFloat pixels pixels := by
  have key : ∀ p x, IsNumber p.1 → p.2 ∈ unitTexts → pixels p = some x →
      ∃ v, lengthParam (p.1 ++ p.2) = .ok v ∧ Numeric v ∧ v.toFloat = x := by
    rintro ⟨n, u⟩ x hn hu h
    rw [lengthParam_eq hn hu]
    simp only [pixels] at h
    split at h
    · rename_i hh
      injection h with h
      rcases hh with rfl | rfl <;> exact ⟨.num (num n), rfl, ⟨_, rfl⟩, h⟩
    · split at h
      · rename_i hh; subst hh
        injection h with h
        exact ⟨.num (num n * (13333 / 10000)), rfl, ⟨_, rfl⟩, h⟩
      · split at h
        · rename_i hh; subst hh
          injection h with h
          exact ⟨.num (num n * 16), rfl, ⟨_, rfl⟩, h⟩
        · simp at h
  exact ⟨key, key⟩

theorem identity_good {H : Val ℝ → Prop} {R S : Val ℝ → ℝ} (L : Linear H R S) :
    Good H R S identity ∧ denote R S identity = Mat.identity :=
  ⟨⟨L.zero.1, L.zero.1, Or.inr ⟨rfl, rfl⟩⟩, by ext <;> simp [denote, identity, Mat.identity, L.zero]⟩

theorem identity_apply (p : Pt ℝ) : Mat.pointInMatrixSpace Mat.identity p = p := by
  ext <;> simp [Mat.pointInMatrixSpace, Mat.identity]

theorem numeric_ofMat {m : LMat ℝ} (he : Numeric m.e) (hf : Numeric m.f) :
    m = ofMat (denote Val.toFloat Val.toFloat m) := by
  obtain ⟨a, b, c, d, e, f⟩ := m
  obtain ⟨x, rfl⟩ := he
  obtain ⟨y, rfl⟩ := hf
  rfl

/-- **C30.** `Matrix(text)`, for a text that is a list of transform functions in any letter case, gives a matrix of
numbers, whatever it is rendered with: the one that applies the last function of the list first and the first function
last. The functions are `matrix`, `translate`, `translateX`, `translateY`, `scale`, `scaleX`, `scaleY`, `rotate`,
`skew`, `skewX` and `skewY` with the parameters of `Acts`; lengths are in pixels, points or picas or without unit (for
other units see C31). -/
theorem C30_list (fs : List (List Char × List Param)) (φs : List (Pt ℝ → Pt ℝ)) (s : List Char)
    (hs : FunctionsText fs (s.map Char.toLower)) (h : List.Forall₂ (Acts pixels pixels) fs φs) :
    ∃ M : Mat ℝ, (∀ ctx, ofText ctx s = .ok (ofMat M)) ∧ ∀ p, M.pointInMatrixSpace p = compose φs p := by
  obtain ⟨gi, di⟩ := identity_good linear_numeric
  obtain ⟨r, h1, h2, h3⟩ := parse_good linear_numeric reads_pixels hs rfl h gi (Or.inl fun _ _ => rfl)
  refine ⟨denote Val.toFloat Val.toFloat r, fun ctx => ?_, fun p => by rw [h3, di, identity_apply]⟩
  rw [ofText, h1, numeric_ofMat h2.e h2.f]
  rfl

theorem separators_append {a b : List Char} (ha : Separators a) (hb : Separators b) : Separators (a ++ b) := by
  intro c hc
  rcases List.mem_append.1 hc with hc | hc
  · exact ha c hc
  · exact hb c hc

theorem functionsText_sep {a u : List Char} {gs : List (List Char × List Param)} (ha : Separators a)
    (h : FunctionsText gs u) : FunctionsText gs (a ++ u) := by
  cases h with
  | nil hs => exact .nil (separators_append ha hs)
  | cons h1 h2 h3 h4 h5 h6 =>
    rw [← List.append_assoc]
    exact .cons (separators_append ha h1) h2 h3 h4 h5 h6

theorem functionsText_append {t u : List Char} {fs gs : List (List Char × List Param)} (h : FunctionsText fs t)
    (h' : FunctionsText gs u) : FunctionsText (fs ++ gs) (t ++ u) := by
  induction h with
  | nil hs => exact functionsText_sep hs h'
  | @cons sep name ws body rest ps fs h1 h2 h3 h4 h5 h6 ih =>
    have := FunctionsText.cons h1 h2 h3 h4 h5 ih
    simpa using this

theorem compose_append (φs ψs : List (Pt ℝ → Pt ℝ)) (p : Pt ℝ) :
    compose (φs ++ ψs) p = compose φs (compose ψs p) := by
  induction φs with
  | nil => rfl
  | cons f φs ih => simp [compose, ih]

theorem mat_ext_points {M N : Mat ℝ} (h : ∀ p, M.pointInMatrixSpace p = N.pointInMatrixSpace p) : M = N := by
  have h0 := h ⟨0, 0⟩
  have h1 := h ⟨1, 0⟩
  have h2 := h ⟨0, 1⟩
  simp only [Mat.pointInMatrixSpace, Pt.mk.injEq] at h0 h1 h2
  ext
  · linarith [h0.1, h1.1]
  · linarith [h0.2, h1.2]
  · linarith [h0.1, h2.1]
  · linarith [h0.2, h2.2]
  · linarith [h0.1]
  · linarith [h0.2]

/-- **C30.** Reading two transform lists written one after the other, with a space or other separators or nothing
between them, is the product of the two matrices, the second one applied first. -/
theorem C30_concat (fs gs : List (List Char × List Param)) (φs ψs : List (Pt ℝ → Pt ℝ)) (s t sep : List Char)
    (hs : FunctionsText fs (s.map Char.toLower)) (h : List.Forall₂ (Acts pixels pixels) fs φs)
    (ht : FunctionsText gs (t.map Char.toLower)) (h' : List.Forall₂ (Acts pixels pixels) gs ψs)
    (hsep : Separators sep) :
    ∃ M N : Mat ℝ, (∀ ctx, ofText ctx s = .ok (ofMat M)) ∧ (∀ ctx, ofText ctx t = .ok (ofMat N)) ∧
      (∀ ctx, ofText ctx (s ++ (sep ++ t)) = .ok (ofMat (Mat.matmul N M))) ∧
      ∀ p, (Mat.matmul N M).pointInMatrixSpace p = M.pointInMatrixSpace (N.pointInMatrixSpace p) := by
  obtain ⟨M, hM, aM⟩ := C30_list fs φs s hs h
  obtain ⟨N, hN, aN⟩ := C30_list gs ψs t ht h'
  have hl : sep.map Char.toLower = sep := by
    conv_rhs => rw [← List.map_id sep]
    apply List.map_congr_left
    intro c hc
    rcases hsep c hc with rfl | rfl | rfl | rfl | rfl <;> decide
  obtain ⟨P, hP, aP⟩ := C30_list (fs ++ gs) (φs ++ ψs) (s ++ (sep ++ t)) (by
    rw [List.map_append, List.map_append, hl]
    exact functionsText_append hs (functionsText_sep hsep ht)) (List.rel_append h h')
  have hmul : ∀ p, (Mat.matmul N M).pointInMatrixSpace p = M.pointInMatrixSpace (N.pointInMatrixSpace p) :=
    fun p => point_multiply N M p
  have : P = Mat.matmul N M := mat_ext_points fun p => by rw [aP, compose_append, hmul, aM, aN]
  exact ⟨M, N, hM, hN, this ▸ hP, hmul⟩

/-- a text in mixed case with lengths, an angle and a pivot -/
example : ∃ fs φs, FunctionsText fs ("Translate(10,2pt) rotate(.5turn 1 2)".toList.map Char.toLower) ∧
    List.Forall₂ (Acts pixels pixels) fs φs ∧ fs.length = 2 := by
  have n : ∀ t ∈ ["10".toList, "2".toList, ".5".toList, "1".toList], IsNumber t := by
    intro t ht
    have : ∀ t ∈ ["10".toList, "2".toList, ".5".toList, "1".toList], matchFloat t = some (t, []) := by decide +kernel
    exact (matchFloat_sound (this t ht)).2
  refine ⟨[("translate".toList, [("10".toList, []), ("2".toList, "pt".toList)]),
    ("rotate".toList, [(".5".toList, "turn".toList), ("1".toList, []), ("2".toList, [])])],
    [_, _], ?_, .cons (.translate (.xy (by simp [pixels]; rfl) (by simp [pixels]; rfl)) (by simp))
      (.cons (.rotate (by simp [angle]; rfl) (.xy (by simp [pixels]; rfl) (by simp [pixels]; rfl))) .nil), rfl⟩
  have p1 : ParamsText [("10".toList, []), ("2".toList, "pt".toList)] "10,2pt".toList :=
    .cons (sep := []) (ws := []) (u := []) (rest := ",2pt".toList) (by simp [Separators]) (n _ (by simp))
      (by simp [Spaces]) (by decide) (stops_of_head (by simp [NumChar, IsDigit]))
      (.cons (sep := [',']) (ws := []) (u := "pt".toList) (rest := []) (by simp [Separators]) (n _ (by simp))
        (by simp [Spaces]) (by decide) (stops_of_head (by simp [NumChar, IsDigit]))
        (.nil (by simp [Separators])))
  have p2 : ParamsText [(".5".toList, "turn".toList), ("1".toList, []), ("2".toList, [])] ".5turn 1 2".toList :=
    .cons (sep := []) (ws := []) (u := "turn".toList) (rest := " 1 2".toList) (by simp [Separators]) (n _ (by simp))
      (by simp [Spaces]) (by decide) (stops_of_head (by simp [NumChar, IsDigit]))
      (.cons (sep := [' ']) (ws := []) (u := []) (rest := " 2".toList) (by simp [Separators]) (n _ (by simp))
        (by simp [Spaces]) (by decide) (stops_of_head (by simp [NumChar, IsDigit]))
        (.cons (sep := [' ']) (ws := []) (u := []) (rest := []) (by simp [Separators]) (n _ (by simp))
          (by simp [Spaces]) (by decide) (stops_of_head (by simp [NumChar, IsDigit]))
          (.nil (by simp [Separators]))))
  exact .cons (sep := []) (ws := []) (by simp [Separators]) (by decide) (by simp [Spaces]) p1 (by simp)
    (.cons (sep := [' ']) (ws := []) (by simp [Separators]) (by decide) (by simp [Spaces]) p2 (by simp)
      (.nil (by simp [Separators])))

/-! ### C31 -/

/-- units that are kept until more is known -/
def lateUnits : List Units := [.mm, .cm, .inch, .em, .ex, .vw, .vh, .vmin, .vmax, .percent]

/-- zero, or a length in the unit `u` -/
def OneUnit (u : Units) (v : Val ℝ) : Prop := v = .num 0 ∨ v = .len ⟨0, .none⟩ ∨ ∃ a, v = .len ⟨a, u⟩

/-- the number that a length in one unit will be, at `k` pixels per unit -/
def times (k : ℝ) : Val ℝ → ℝ
  | .num x => x
  | .len l => l.amount * k

theorem late_value {u : Units} (hu : u ∈ lateUnits) (a : ℝ) : Len.value {} ⟨a, u⟩ = .ok (.len ⟨a, u⟩) := by
  simp only [lateUnits, List.mem_cons, List.not_mem_nil, or_false] at hu
  rcases hu with rfl | rfl | rfl | rfl | rfl | rfl | rfl | rfl | rfl | rfl <;> simp [Len.value, Len.valueAbs]

theorem late_ne_none {u : Units} (hu : u ∈ lateUnits) : u ≠ .none := by
  rintro rfl; revert hu; decide

theorem late_isZero {u : Units} (hu : u ∈ lateUnits) (a : ℝ) (h : (Val.len ⟨a, u⟩ : Val ℝ).isZero = true) :
    a = 0 := by
  simp only [lateUnits, List.mem_cons, List.not_mem_nil, or_false] at hu
  rcases hu with rfl | rfl | rfl | rfl | rfl | rfl | rfl | rfl | rfl | rfl <;>
    simpa [Val.isZero, Len.eqNum, Len.inPixels] using h

theorem linear_oneUnit {u : Units} (hu : u ∈ lateUnits) (kx ky : ℝ) : Linear (OneUnit u) (times kx) (times ky) where
  zero := ⟨Or.inl rfl, rfl, rfl⟩
  smul := by
    rintro _ x (rfl | rfl | ⟨a, rfl⟩)
    · exact ⟨Or.inl (by simp [Val.smul]), by simp [Val.smul, times], by simp [Val.smul, times]⟩
    · exact ⟨Or.inr (Or.inl (by simp [Val.smul, Len.mulNum])), by simp [Val.smul, times, Len.mulNum],
        by simp [Val.smul, times, Len.mulNum]⟩
    · exact ⟨Or.inr (Or.inr ⟨_, rfl⟩), by simp [Val.smul, times, Len.mulNum]; ring,
        by simp [Val.smul, times, Len.mulNum]; ring⟩
  add := by
    have hn := late_ne_none hu
    have hn' : ¬ Units.none = u := fun h => hn h.symm
    have c1 : ∀ a : ℝ, (Len.add ⟨a, u⟩ ⟨0, .none⟩ : Except PyErr (Len ℝ)) = .ok (if a = 0 then ⟨0, .none⟩ else ⟨a, u⟩) := by
      intro a
      by_cases ha : a = 0 <;> simp [Len.add, hn, ha]
    rintro _ _ (rfl | rfl | ⟨a, rfl⟩) (rfl | rfl | ⟨b, rfl⟩)
    · exact ⟨.num 0, by simp [Val.add], Or.inl rfl, by simp [times], by simp [times]⟩
    · exact ⟨.len ⟨0, .none⟩, by simp [Val.add, Len.add, Except.map], Or.inr (Or.inl rfl), by simp [times], by simp [times]⟩
    · refine ⟨.len (if b = 0 then ⟨0, .none⟩ else ⟨b, u⟩), by simp only [Val.add, c1, Except.map], ?_, ?_, ?_⟩
      · split
        · exact Or.inr (Or.inl rfl)
        · exact Or.inr (Or.inr ⟨_, rfl⟩)
      · split <;> simp_all [times]
      · split <;> simp_all [times]
    · exact ⟨.len ⟨0, .none⟩, by simp [Val.add, Len.add, Except.map], Or.inr (Or.inl rfl), by simp [times], by simp [times]⟩
    · exact ⟨.len ⟨0, .none⟩, by simp [Val.add, Len.add, Except.map], Or.inr (Or.inl rfl), by simp [times], by simp [times]⟩
    · exact ⟨.len ⟨b, u⟩, by simp [Val.add, Len.add, Except.map, hn'], Or.inr (Or.inr ⟨_, rfl⟩), by simp [times],
        by simp [times]⟩
    · refine ⟨.len (if a = 0 then ⟨0, .none⟩ else ⟨a, u⟩), by simp only [Val.add, c1, Except.map], ?_, ?_, ?_⟩
      · split
        · exact Or.inr (Or.inl rfl)
        · exact Or.inr (Or.inr ⟨_, rfl⟩)
      · split <;> simp_all [times]
      · split <;> simp_all [times]
    · refine ⟨.len (if a = 0 then ⟨0, .none⟩ else ⟨a, u⟩), by simp only [Val.add, c1, Except.map], ?_, ?_, ?_⟩
      · split
        · exact Or.inr (Or.inl rfl)
        · exact Or.inr (Or.inr ⟨_, rfl⟩)
      · split <;> simp_all [times]
      · split <;> simp_all [times]
    · exact ⟨.len ⟨a + b, u⟩, by simp [Val.add, Len.add, Except.map], Or.inr (Or.inr ⟨_, rfl⟩),
        by simp [times]; ring, by simp [times]; ring⟩
  neg := by
    rintro _ (rfl | rfl | ⟨a, rfl⟩)
    · exact ⟨Or.inl (by simp [Val.neg]), by simp [Val.neg, times], by simp [Val.neg, times]⟩
    · exact ⟨Or.inr (Or.inl (by simp [Val.neg, Len.neg])), by simp [Val.neg, Len.neg, times],
        by simp [Val.neg, Len.neg, times]⟩
    · exact ⟨Or.inr (Or.inr ⟨_, rfl⟩), by simp [Val.neg, Len.neg, times], by simp [Val.neg, Len.neg, times]⟩
  value := by
    rintro _ (rfl | rfl | ⟨a, rfl⟩)
    · exact ⟨_, rfl, Or.inl rfl, rfl, rfl⟩
    · exact ⟨.num 0, by simp [Val.value, Len.value, Len.valueAbs], Or.inl rfl, by simp [times], by simp [times]⟩
    · exact ⟨_, by rw [Val.value]; exact late_value hu a, Or.inr (Or.inr ⟨_, rfl⟩), rfl, rfl⟩
  isZero := by
    rintro _ (rfl | rfl | ⟨a, rfl⟩) h
    · exact ⟨rfl, rfl⟩
    · simp [times]
    · rw [late_isZero hu a h]; simp [times]

/-- resolving is multiplying by the pixels per unit -/
theorem value_times {ctx : Len.Ctx ℝ} {u : Units} (h : ∀ a, ∃ x, Len.value ctx ⟨a, u⟩ = .ok (.num x)) :
    ∃ k, ∀ a, Len.value ctx ⟨a, u⟩ = .ok (.num (a * k)) := by
  by_cases hp : u = .percent
  · subst hp
    obtain ⟨x, hx⟩ := h 1
    cases hr : ctx.relative with
    | none => simp [Len.value, hr] at hx
    | some r =>
      cases r with
      | num r => exact ⟨r / 100, fun a => by simp [Len.value, hr]; ring⟩
      | len r =>
        by_cases hr0 : r.amount = 0
        · exact ⟨0, fun a => by simp [Len.value, hr, Len.mul, hr0]⟩
        · by_cases hru : r.units = .percent
          · simp [Len.value, hr, Len.mul, hr0, hru, Len.valueAbs] at hx
          · have e : ∀ a, Len.value ctx ⟨a, .percent⟩ =
                .ok (Len.valueAbs { ctx with relative := none } ⟨r.amount * a / 100, r.units⟩) := by
              intro a
              by_cases ha : a = 0
              · simp [Len.value, hr, Len.mul, hr0, ha]
              · simp [Len.value, hr, Len.mul, hr0, ha, hru]
            rw [e] at hx
            simp only [e]
            obtain ⟨ra, ru⟩ := r
            simp only at hru hx ⊢
            cases ru with
            | percent => exact absurd rfl hru
            | mm | cm | inch =>
              cases hq : ctx.ppi with
              | none => simp [Len.valueAbs, hq] at hx
              | some q =>
                simp only [Len.valueAbs, hq]
                first
                | exact ⟨ra / 100 * q * Len.cMm, fun a => by congr 2; ring1⟩
                | exact ⟨ra / 100 * q * Len.cCm, fun a => by congr 2; ring1⟩
                | exact ⟨ra / 100 * q, fun a => by congr 2; ring1⟩
            | em =>
              cases hq : ctx.fontSize with
              | none => simp [Len.valueAbs, hq] at hx
              | some q => exact ⟨ra / 100 * q, fun a => by simp [Len.valueAbs, hq]; ring⟩
            | ex =>
              cases hq : ctx.fontHeight with
              | none => simp [Len.valueAbs, hq] at hx
              | some q => exact ⟨ra / 100 * q, fun a => by simp [Len.valueAbs, hq]; ring⟩
            | vw =>
              cases hq : ctx.viewbox with
              | none => simp [Len.valueAbs, hq] at hx
              | some q => exact ⟨ra / 100 * q.1 / 100, fun a => by simp [Len.valueAbs, hq]; ring⟩
            | vh | vmin | vmax =>
              cases hq : ctx.viewbox with
              | none => simp [Len.valueAbs, hq] at hx
              | some q => exact ⟨ra / 100 * q.2 / 100, fun a => by simp [Len.valueAbs, hq]; ring⟩
            | none | px => exact ⟨ra / 100, fun a => by simp [Len.valueAbs]; ring⟩
            | pt => exact ⟨ra / 100 * Len.cPt, fun a => by simp [Len.valueAbs]; ring⟩
            | pc => exact ⟨ra / 100 * 16, fun a => by simp [Len.valueAbs]; ring⟩
            | other t => exact ⟨ra / 100, fun a => by simp [Len.valueAbs, Len.toFloat]; ring⟩
  · obtain ⟨x, hx⟩ := h 1
    have e : ∀ a : ℝ, Len.value ctx ⟨a, u⟩ = .ok (Len.valueAbs ctx ⟨a, u⟩) := fun a => by simp [Len.value, hp]
    rw [e] at hx
    simp only [e]
    cases u with
    | percent => exact absurd rfl hp
    | mm =>
      cases hq : ctx.ppi with
      | none => simp [Len.valueAbs, hq] at hx
      | some q => exact ⟨q * Len.cMm, fun a => by simp [Len.valueAbs, hq]; ring⟩
    | cm =>
      cases hq : ctx.ppi with
      | none => simp [Len.valueAbs, hq] at hx
      | some q => exact ⟨q * Len.cCm, fun a => by simp [Len.valueAbs, hq]; ring⟩
    | inch =>
      cases hq : ctx.ppi with
      | none => simp [Len.valueAbs, hq] at hx
      | some q => exact ⟨q, fun a => by simp [Len.valueAbs, hq]⟩
    | em =>
      cases hq : ctx.fontSize with
      | none => simp [Len.valueAbs, hq] at hx
      | some q => exact ⟨q, fun a => by simp [Len.valueAbs, hq]⟩
    | ex =>
      cases hq : ctx.fontHeight with
      | none => simp [Len.valueAbs, hq] at hx
      | some q => exact ⟨q, fun a => by simp [Len.valueAbs, hq]⟩
    | vw =>
      cases hq : ctx.viewbox with
      | none => simp [Len.valueAbs, hq] at hx
      | some q => exact ⟨q.1 / 100, fun a => by simp [Len.valueAbs, hq]; ring⟩
    | vh | vmin | vmax =>
      cases hq : ctx.viewbox with
      | none => simp [Len.valueAbs, hq] at hx
      | some q => exact ⟨q.2 / 100, fun a => by simp [Len.valueAbs, hq]; ring⟩
    | none | px => exact ⟨1, fun a => by simp [Len.valueAbs]⟩
    | pt => exact ⟨Len.cPt, fun a => by simp [Len.valueAbs]⟩
    | pc => exact ⟨16, fun a => by simp [Len.valueAbs]⟩
    | other t => exact ⟨1, fun a => by simp [Len.valueAbs, Len.toFloat]⟩

theorem value_oneUnit {ctx : Len.Ctx ℝ} {u : Units} {k : ℝ} (h : ∀ a, Len.value ctx ⟨a, u⟩ = .ok (.num (a * k)))
    {v : Val ℝ} (hv : OneUnit u v) : v.value ctx = .ok (.num (times k v)) := by
  rcases hv with rfl | rfl | ⟨a, rfl⟩
  · rfl
  · simp [Val.value, Len.value, Len.valueAbs, times]
  · exact h a

theorem render_oneUnit {ctx : RenderCtx ℝ} {u : Units} {kx ky : ℝ}
    (hx : ∀ a, Len.value ctx.x ⟨a, u⟩ = .ok (.num (a * kx))) (hy : ∀ a, Len.value ctx.y ⟨a, u⟩ = .ok (.num (a * ky)))
    {m : LMat ℝ} (he : OneUnit u m.e) (hf : OneUnit u m.f) :
    render ctx m = .ok (ofMat (denote (times kx) (times ky) m)) := by
  simp only [render, value_oneUnit hx he, value_oneUnit hy hf, bind, Except.bind]
  rfl

/-- a context gives the size of the unit `u` in pixels, along x and along y -/
def Resolves (ctx : RenderCtx ℝ) (u : Units) : Prop :=
  (∀ a, ∃ x, Len.value ctx.x ⟨a, u⟩ = .ok (.num x)) ∧ ∀ a, ∃ x, Len.value ctx.y ⟨a, u⟩ = .ok (.num x)

theorem value_xy {ctx : RenderCtx ℝ} {u : Units} (hu : u ≠ .percent) (a : ℝ) :
    Len.value ctx.x ⟨a, u⟩ = Len.value ctx.y ⟨a, u⟩ := by
  simp only [Len.value, hu, if_false, RenderCtx.x, RenderCtx.y]
  cases u <;> rfl

/-- the length of a parameter that is in the unit `u`, resolved in the context; a plain `0` is also allowed -/
noncomputable def resolved (u : List Char) (ctx : Len.Ctx ℝ) (p : Param) : Option ℝ :=
  if p.2 = u then
    match Len.value ctx (⟨num p.1, Units.ofText u⟩ : Len ℝ) with
    | .ok (.num x) => some x
    | _ => none
  else if p.2 = [] ∧ num p.1 = 0 then some 0
  else none

theorem reads_resolved {u : List Char} {ctx : RenderCtx ℝ} {kx ky : ℝ} (hu : Units.ofText u ∈ lateUnits)
    (hx : ∀ a, Len.value ctx.x ⟨a, Units.ofText u⟩ = .ok (.num (a * kx)))
    (hy : ∀ a, Len.value ctx.y ⟨a, Units.ofText u⟩ = .ok (.num (a * ky))) :
    Reads (OneUnit (Units.ofText u)) (times kx) (times ky) (resolved u ctx.x) (resolved u ctx.y) := by
  have key : ∀ (c : Len.Ctx ℝ) (k : ℝ), (∀ a, Len.value c ⟨a, Units.ofText u⟩ = .ok (.num (a * k))) →
      ∀ p x, IsNumber p.1 → p.2 ∈ unitTexts → resolved u c p = some x →
      ∃ v, lengthParam (p.1 ++ p.2) = .ok v ∧ OneUnit (Units.ofText u) v ∧ times k v = x := by
    rintro c k hk ⟨n, w⟩ x hn hw h
    simp only [resolved] at h
    split at h
    · rename_i e; subst e
      rw [hk] at h
      injection h with h
      exact ⟨.len ⟨num n, Units.ofText w⟩, by rw [lengthParam_eq hn hw]; exact late_value hu _,
        Or.inr (Or.inr ⟨_, rfl⟩), h⟩
    · split at h
      · rename_i e
        obtain ⟨rfl, e⟩ := e
        injection h with h
        exact ⟨.num 0, by rw [List.append_nil, lengthParam_plain hn, e], Or.inl rfl, h⟩
      · simp at h
  exact ⟨key _ _ hx, key _ _ hy⟩

/-- **C31**, transform texts. Reading a transform list whose lengths are all in one unit (or a plain 0) keeps the
lengths, and rendering the result in a context that knows the size of the unit gives the matrix of numbers that
applies the same functions with their lengths resolved in that context first. With percentages, which are of the width
along x and of the height along y, the list may only translate and scale (`C31_percent_wrong`). Missing for the full claim:
several units in one list, which the library refuses (`C31_units_refused`). -/
theorem C31_late_partial (u : List Char) (hu : Units.ofText u ∈ lateUnits) (ctx : RenderCtx ℝ)
    (hc : Resolves ctx (Units.ofText u)) (fs : List (List Char × List Param)) (φs : List (Pt ℝ → Pt ℝ)) (s : List Char)
    (hs : FunctionsText fs (s.map Char.toLower))
    (h : List.Forall₂ (Acts (resolved u ctx.x) (resolved u ctx.y)) fs φs)
    (hd : Units.ofText u ≠ .percent ∨ ∀ f ∈ fs, f.1 ∈ diagonalNames) :
    ∃ (m : LMat ℝ) (M : Mat ℝ), parse identity s = .ok m ∧ render ctx m = .ok (ofMat M) ∧
      ofText ctx s = .ok (ofMat M) ∧ ∀ p, M.pointInMatrixSpace p = compose φs p := by
  obtain ⟨kx, hx⟩ := value_times hc.1
  obtain ⟨ky, hy⟩ := value_times hc.2
  have L := linear_oneUnit hu kx ky
  obtain ⟨gi, di⟩ := identity_good L
  obtain ⟨r, h1, h2, h3⟩ := parse_good L (reads_resolved hu hx hy) hs rfl h gi (by
    rcases hd with hd | hd
    · left
      have hk : kx = ky := by
        have := hx 1
        rw [value_xy hd, hy] at this
        injection this with this
        injection this with this
        linarith
      intro v _
      rw [hk]
    · exact Or.inr hd)
  have hr := render_oneUnit hx hy h2.e h2.f
  refine ⟨r, _, h1, hr, ?_, fun p => by rw [h3, di, identity_apply]⟩
  simp only [ofText, h1, bind, Except.bind, hr]

/-- **C31**, products. For two matrices whose translations are lengths in one unit, rendering the product is the
product of the rendered matrices. With percentages the second matrix must not mix x and y. -/
theorem C31_product_partial (u : Units) (hu : u ∈ lateUnits) (ctx : RenderCtx ℝ) (hc : Resolves ctx u) (A B : LMat ℝ)
    (hA : OneUnit u A.e ∧ OneUnit u A.f) (hB : OneUnit u B.e ∧ OneUnit u B.f)
    (hd : u ≠ .percent ∨ (B.b = 0 ∧ B.c = 0)) :
    ∃ (P : LMat ℝ) (A' B' : Mat ℝ), multiply A B = .ok P ∧ render ctx A = .ok (ofMat A') ∧
      render ctx B = .ok (ofMat B') ∧ render ctx P = .ok (ofMat (Mat.matmul A' B')) := by
  obtain ⟨kx, hx⟩ := value_times hc.1
  obtain ⟨ky, hy⟩ := value_times hc.2
  have L := linear_oneUnit hu kx ky
  have mix : Mix (OneUnit u) (times kx) (times ky) B.b B.c := by
    rcases hd with hd | ⟨h3, h4⟩
    · have hk : kx = ky := by
        have := hx 1
        rw [value_xy hd, hy] at this
        injection this with this
        injection this with this
        linarith
      subst hk
      exact Or.inl fun _ _ => rfl
    · exact Or.inr ⟨h3, h4⟩
  obtain ⟨P, h1, ⟨h2, h2', -⟩, h3⟩ := multiply_ok L hA.1 hA.2 ⟨hB.1, hB.2, mix⟩
  refine ⟨P, _, _, h1, render_oneUnit hx hy hA.1 hA.2, render_oneUnit hx hy hB.1 hB.2, ?_⟩
  rw [render_oneUnit hx hy h2 h2', h3]
  rfl

/-- a context with a resolution resolves centimetres, one with a width and a height resolves percentages -/
example : Resolves { ppi := some 96 } .cm ∧ Resolves { width := some (.num 100), height := some (.num 40) } .percent :=
  ⟨⟨fun _ => ⟨_, rfl⟩, fun _ => ⟨_, rfl⟩⟩, ⟨fun _ => ⟨_, rfl⟩, fun _ => ⟨_, rfl⟩⟩⟩

/-- a text with centimetres and a rotation -/
example : ∃ fs φs, FunctionsText fs ("translate(2cm, 0) rotate(90)".toList.map Char.toLower) ∧
    List.Forall₂ (Acts (resolved "cm".toList (RenderCtx.x { ppi := some 96 }))
      (resolved "cm".toList (RenderCtx.y { ppi := some 96 }))) fs φs ∧ fs.length = 2 := by
  have n : ∀ t ∈ ["2".toList, "0".toList, "90".toList], IsNumber t := by
    intro t ht
    have : ∀ t ∈ ["2".toList, "0".toList, "90".toList], matchFloat t = some (t, []) := by decide +kernel
    exact (matchFloat_sound (this t ht)).2
  have z : num "0".toList = 0 := by
    have : floatVal "0".toList = 0 := by decide +kernel
    rw [num, this, Rat.cast_zero]
  refine ⟨[("translate".toList, [("2".toList, "cm".toList), ("0".toList, [])]), ("rotate".toList, [("90".toList, [])])],
    [_, _], ?_, .cons (.translate (.xy (by rw [resolved, if_pos rfl]; rfl)
      (by rw [resolved, if_neg (by decide), if_pos ⟨rfl, z⟩])) (by simp))
      (.cons (.rotate (by simp [angle]; rfl) .none) .nil), rfl⟩
  have p1 : ParamsText [("2".toList, "cm".toList), ("0".toList, [])] "2cm, 0".toList :=
    .cons (sep := []) (ws := []) (u := "cm".toList) (rest := ", 0".toList) (by simp [Separators]) (n _ (by simp))
      (by simp [Spaces]) (by decide) (stops_of_head (by simp [NumChar, IsDigit]))
      (.cons (sep := [',', ' ']) (ws := []) (u := []) (rest := []) (by simp [Separators]) (n _ (by simp))
        (by simp [Spaces]) (by decide) (stops_of_head (by simp [NumChar, IsDigit]))
        (.nil (by simp [Separators])))
  have p2 : ParamsText [("90".toList, [])] "90".toList :=
    .cons (sep := []) (ws := []) (u := []) (rest := []) (by simp [Separators]) (n _ (by simp))
      (by simp [Spaces]) (by decide) (stops_of_head (by simp [NumChar, IsDigit])) (.nil (by simp [Separators]))
  exact .cons (sep := []) (ws := []) (by simp [Separators]) (by decide) (by simp [Spaces]) p1 (by simp)
    (.cons (sep := [' ']) (ws := []) (by simp [Separators]) (by decide) (by simp [Spaces]) p2 (by simp)
      (.nil (by simp [Separators])))

/-- **C31**, percentages: rendering resolves them along x with the width and along y with the height. -/
theorem C31_percent_axes (ctx : RenderCtx ℝ) (w h a b : ℝ) (hw : ctx.width = some (.num w)) (hh : ctx.height = some (.num h))
    (A B C D : ℝ) :
    render ctx ⟨A, B, C, D, .len ⟨a, .percent⟩, .len ⟨b, .percent⟩⟩ =
      .ok (ofMat ⟨A, B, C, D, w * (a / 100), h * (b / 100)⟩) := by
  have e1 : Len.value ctx.x ⟨a, .percent⟩ = .ok (.num (w * (a / 100))) := by
    simp [Len.value, RenderCtx.x, hw]; ring
  have e2 : Len.value ctx.y ⟨b, .percent⟩ = .ok (.num (h * (b / 100))) := by
    simp [Len.value, RenderCtx.y, hh]; ring
  simp only [render, Val.value, e1, e2, bind, Except.bind]
  rfl

/-- The claim is false for percentages under a rotation: half the width, turned by a right angle, is resolved as half
the height. -/
theorem C31_percent_wrong : ∃ (m r late first t : LMat ℚ) (ctx : RenderCtx ℚ),
    make 1 0 0 1 (.len ⟨50, .percent⟩) (.num 0) = .ok t ∧
    m = ⟨0, 1, -1, 0, .num 0, .num 0⟩ ∧ preCat m t = .ok r ∧ render ctx r = .ok late ∧
    (render ctx t).bind (preCat m) = .ok first ∧ late.f ≠ first.f :=
  ⟨⟨0, 1, -1, 0, .num 0, .num 0⟩, ⟨0, 1, -1, 0, .len ⟨0, .none⟩, .len ⟨50, .percent⟩⟩,
    ⟨0, 1, -1, 0, .num 0, .num 20⟩, ⟨0, 1, -1, 0, .num 0, .num 50⟩, ⟨1, 0, 0, 1, .len ⟨50, .percent⟩, .num 0⟩,
    { width := some (.num 100), height := some (.num 40) }, by decide +kernel⟩

/-- Two units in one list are refused, also where each could be resolved: a centimetre after a pixel. -/
theorem C31_units_refused : ∃ (m : LMat ℚ), preTranslate identity (.num 1) (.num 0) = .ok m ∧
    preTranslate m (.len ⟨1, .cm⟩) (.num 0) = .error .valueError :=
  ⟨⟨1, 0, 0, 1, .num 1, .num 0⟩, by decide +kernel⟩

end Svgio.Props
