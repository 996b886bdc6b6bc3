import Verif.Lemmas.PrintPath
import Verif.Props.Print
import Verif.Props.PathText

/-!
C45: writing and re-reading a path; C84: the text of a segment; C85: the text of a subpath.
-/

namespace Svgio.Props

open Spec Print Lexer

variable {val : List Char → ℚ} {mk : Path.ArcCtor ℚ} {arcOf : ArcOf ℚ} {ar : ArcData ℚ → ArcArgs}

theorem adj_of_index {Q : Seg ℚ → Seg ℚ → Prop} (p : List (Seg ℚ)) : ∀ a : Seg ℚ,
    (∀ (i : ℕ) (x y : Seg ℚ), (a :: p)[i]? = some x → (a :: p)[i + 1]? = some y → Q x y) → Adj Q a p := by
  induction p with
  | nil => intros; trivial
  | cons b r ih =>
    intro a h
    refine ⟨h 0 a b rfl rfl, ih b fun i x y hx hy => h (i + 1) x y hx hy⟩

theorem sub_zero_pt (q : Pt ℚ) : q.sub ⟨0, 0⟩ = q := by simp [Pt.sub]

/-- Printing a connected path that starts with a move, and reading the text. -/
theorem svgD_parse (hmk : ArcsBy mk arcOf) (R : Pt ℚ → Pt ℚ) (relative smooth : Option Bool) (m : Seg ℚ) (p : List (Seg ℚ))
    (hm : m.kind = .move) (hconn : Connected Eq (m :: p)) (hends : HasEnds (m :: p)) (hC : ∀ s ∈ p, HasControls s)
    (hR0 : ∀ q, m.stop = some q → rdPt val q = R q)
    (hA : Adj (fun a b => ∀ cur, a.stop = some cur → ∀ q ∈ drawnPts b, ∀ pen : Pen ℚ, pen.cur = R cur →
        pen.pt (relative.getD b.relative) (argPt val (relative.getD b.relative) cur q) = R q) m p)
    (hS : Adj (fun a b => Shortened smooth (some a) b → ∀ cur, a.stop = some cur → b.start = some cur → ∀ pen : Pen ℚ, pen.cur = R cur →
        pen.ctrl = ctrlOf R a → SmoothFits R pen b) m p) :
    ∃ t p1, svgD ar (m :: p) relative smooth = .ok t ∧ parse val mk [] t = (⟨p1, ⟨[], none⟩⟩, none) ∧
      p1.map noSmooth = { redrawn R (arcBack val ar arcOf) (relative.getD m.relative) m with start := none } ::
        p.map (fun s => redrawn R (arcBack val ar arcOf) (relative.getD s.relative) s) := by
  obtain ⟨u, hu, hch⟩ := (connected_iff (fun _ => rfl)).1 ⟨hconn, hends⟩
  have hmc : HasControls m := by unfold HasControls; rw [hm]; trivial
  have hctrl : ctrlOf R m = none := by unfold ctrlOf; rw [hm]
  obtain ⟨ts, cs, g1, g2, g3, g4⟩ := partsD_ok (val := val) ar arcOf R relative smooth p m u u ⟨R u, R u, none⟩ hch hC hmc hu (by rw [hctrl]) hA hS
  obtain ⟨a, h1, h2⟩ := segD_ok (val := val) ar (relative.getD m.relative) false ⟨0, 0⟩ m (by rw [hu]; simp) hmc
  have hcmd : cmdOf val ar (relative.getD m.relative) false ⟨0, 0⟩ m = .move (relative.getD m.relative) (R u) := by
    unfold cmdOf argPt
    rw [hm, hu]
    simp only [Option.getD_some, sub_zero_pt, ite_self, hR0 u hu]
  have hpart : partD ar relative smooth none (some ⟨0, 0⟩) m = .ok ((cmdOf val ar (relative.getD m.relative) false ⟨0, 0⟩ m).letter :: a) := by
    rw [← h1]
    unfold partD
    rw [hm]
    simp only
    exact segD_smooth_irrelevant _ _ _ _ _ _ (by rw [hm]; simp)
  rw [hcmd] at hpart h2
  have hw : Writes val (.move (relative.getD m.relative) (R u) :: cs)
      (joinSp (((Cmd.move (relative.getD m.relative) (R u)).letter :: a) :: ts)) := by
    rw [joinSp_cons]
    exact CmdText.letter none [] _ cs _ (joinTail ts) (by intro c hc; simp at hc) (h2 _ (sepHead_tail ts)) (g2 _)
  have hwf : WellFormed (.move (relative.getD m.relative) (R u) :: cs) := ⟨⟨_, _, _, rfl⟩, by simp [Cmd.endsInClose], g4⟩
  refine ⟨_, _, ?_, C38_text_meaning hmk hwf hw, ?_⟩
  · simp only [svgD, partsD, hpart, bind, Except.bind, hu, g1]
  · simp only [meaning, List.map_cons, g3]
    congr 1
    simp [noSmooth, redrawn, hm, hu]

/-- C45, with rounding: for every connected path that starts with a move, `d(relative=False, transformed=False, smooth=False)` is path
data that gives the same segments, with all coordinates rounded to 12 significant digits (as in C46) and arcs made from parameters
rounded to 6 digits. -/
theorem C45_absolute (hmk : ArcsBy mk arcOf) : ∃ (f g : ℚ → ℚ),
    (∀ x, ∃ y, RoundedTo 12 x y ∧ (f x = y ↔ ¬ RoundExponent y)) ∧ (∀ x, RoundedTo 6 x (g x)) ∧
    ∀ (m : Seg ℚ) (p : List (Seg ℚ)), m.kind = .move → m.start = none → Connected Eq (m :: p) → HasEnds (m :: p) →
      (∀ s ∈ p, HasControls s) →
      ∃ t p1, pathD ar (m :: p) (some false) false (some false) = .ok t ∧ parse floatVal mk [] t = (⟨p1, ⟨[], none⟩⟩, none) ∧
        p1.map noSmooth = (m :: p).map (redrawn (fun q => ⟨f q.x, f q.y⟩)
          (fun a b c => arcOf b (g (ar a).rx) (g (ar a).ry) (g (ar a).rot) (ar a).large (ar a).sweep c) false) := by
  refine ⟨rd12 floatVal, rd6 floatVal, fun x => (C46_coordinate_partial x).2, fun x => ?_, ?_⟩
  · unfold rd6
    rw [(fmtG_number (by norm_num) x).2]
    exact gVal_rounded (by norm_num) x
  · intro m p hm hst hconn hends hC
    obtain ⟨t, p1, h1, h2, h3⟩ := svgD_parse (ar := ar) hmk (rdPt floatVal) (some false) (some false) m p hm hconn hends hC (fun _ _ => rfl)
      (adj_of_index p m fun i x y _ _ cur _ q _ pen _ => rfl)
      (adj_of_index p m fun i x y _ _ h => by simp [Shortened] at h)
    refine ⟨t, p1, h1, h2, ?_⟩
    rw [h3, List.map_cons]
    simp only [Option.getD_some]
    congr 1
    simp only [redrawn, hst]
    rfl

/-! ### exact coordinates -/

theorem grid_zero {j : ℕ} (hj : j ≤ 10) {x : ℚ} {k : ℤ} (hx : x = k / 10 ^ j) (h : |x| ≤ err) : x = 0 := by
  have hk : k = 0 := by
    by_contra h0
    have hk1 : (1 : ℚ) ≤ |(k : ℚ)| := by
      have : (1 : ℤ) ≤ |k| := Int.one_le_abs h0
      exact_mod_cast this
    rw [hx, abs_div, abs_of_pos (by positivity : (0 : ℚ) < 10 ^ j), err, div_le_div_iff₀ (by positivity) (by positivity)] at h
    have h2 : (10 : ℚ) ^ j ≤ 10 ^ 10 := pow_le_pow_right₀ (by norm_num) hj
    have h3 : (1 : ℚ) * 10 ^ 12 ≤ |(k : ℚ)| * 10 ^ 12 := mul_le_mul_of_nonneg_right hk1 (by positivity)
    norm_num at h2 h3 h
    linarith
  rw [hx, hk]; simp

theorem rd12_grid {j : ℕ} (hj : j ≤ 10) {x : ℚ} {k : ℤ} (hk : 2 * |k| < 10 ^ 12) (hx : x = k / 10 ^ j) : rd12 floatVal x = x := by
  have h := decimals_ok (x := x) (k := k) hj (by have := abs_nonneg k; omega) hx
  exact C46_exact_partial h.1 h.2

theorem rd12_grid_sub {j : ℕ} (hj : j ≤ 10) {x y : ℚ} (hx : ∃ k : ℤ, 2 * |k| < 10 ^ 12 ∧ x = k / 10 ^ j)
    (hy : ∃ k : ℤ, 2 * |k| < 10 ^ 12 ∧ y = k / 10 ^ j) : rd12 floatVal (x - y) = x - y := by
  obtain ⟨k, h1, h2⟩ := hx
  obtain ⟨l, h3, h4⟩ := hy
  have h5 : |k - l| < 10 ^ 12 := by
    have := abs_sub k l
    omega
  have h := decimals_ok (x := x - y) (k := k - l) hj h5 (by rw [h2, h4]; push_cast; ring)
  exact C46_exact_partial h.1 h.2

theorem rdPt_grid {j : ℕ} (hj : j ≤ 10) {q : Pt ℚ} (h : OnGrid j q) : rdPt floatVal q = q := by
  obtain ⟨⟨k, h1, h2⟩, l, h3, h4⟩ := h
  unfold rdPt
  rw [rd12_grid hj h1 h2, rd12_grid hj h3 h4]

theorem argPt_grid {j : ℕ} (hj : j ≤ 10) {q cur : Pt ℚ} (h : OnGrid j q) (hc : OnGrid j cur) (rel : Bool) (pen : Pen ℚ)
    (hp : pen.cur = cur) : pen.pt rel (argPt floatVal rel cur q) = q := by
  cases rel with
  | false => exact rdPt_grid hj h
  | true =>
    unfold argPt Pen.pt rdPt Pt.sub
    simp only [if_true, rd12_grid_sub hj h.1 hc.1, rd12_grid_sub hj h.2 hc.2, hp]
    simp

theorem eq_grid {j : ℕ} (hj : j ≤ 10) {p q : Pt ℚ} (hp : OnGrid j p) (hq : OnGrid j q) (h : p.eq q = true) : p = q := by
  obtain ⟨⟨k1, -, a1⟩, k2, -, a2⟩ := hp
  obtain ⟨⟨l1, -, b1⟩, l2, -, b2⟩ := hq
  simp only [Pt.eq, Bool.and_eq_true, decide_eq_true_eq] at h
  have e1 := grid_zero hj (x := p.x - q.x) (k := k1 - l1) (by rw [a1, b1]; push_cast; ring) h.1
  have e2 := grid_zero hj (x := p.y - q.y) (k := k2 - l2) (by rw [a2, b2]; push_cast; ring) h.2
  ext <;> linarith

theorem continues_grid {j : ℕ} (hj : j ≤ 10) {s c d : Pt ℚ} (hs : OnGrid j s) (hc : OnGrid j c) (hd : OnGrid j d)
    (h : (c.sub s).eq (s.sub d) = true) : (⟨2 * s.x - d.x, 2 * s.y - d.y⟩ : Pt ℚ) = c := by
  obtain ⟨⟨k1, -, a1⟩, k2, -, a2⟩ := hs
  obtain ⟨⟨l1, -, b1⟩, l2, -, b2⟩ := hc
  obtain ⟨⟨n1, -, c1⟩, n2, -, c2⟩ := hd
  simp only [Pt.eq, Pt.sub, Bool.and_eq_true] at h
  have h1 := of_decide_eq_true h.1
  have h2 := of_decide_eq_true h.2
  have e1 := grid_zero hj (x := c.x - s.x - (s.x - d.x)) (k := l1 - 2 * k1 + n1) (by rw [a1, b1, c1]; push_cast; ring) h1
  have e2 := grid_zero hj (x := c.y - s.y - (s.y - d.y)) (k := l2 - 2 * k2 + n2) (by rw [a2, b2, c2]; push_cast; ring) h2
  ext
  · show 2 * s.x - d.x = c.x; linarith
  · show 2 * s.y - d.y = c.y; linarith

theorem smoothFits_grid {j : ℕ} (hj : j ≤ 10) {a b : Seg ℚ} {cur : Pt ℚ} {pen : Pen ℚ} (ha : ∀ q ∈ drawnPts a, OnGrid j q)
    (hb : ∀ q ∈ drawnPts b, OnGrid j q) (hac : a.stop = some cur) (hbc : b.start = some cur) (hp : pen.cur = cur)
    (hctrl : pen.ctrl = ctrlOf id a) (hcb : HasControls b)
    (hmix : (∀ c1 c2 c, a.kind = .cubic c1 c2 → b.kind = .quad c → c ≠ b.start) ∧
      (∀ c c1 c2, a.kind = .quad c → b.kind = .cubic c1 c2 → c1 ≠ b.start))
    (h : isSmoothFrom b (some a) = .ok true) : SmoothFits id pen b := by
  have hcur : OnGrid j cur := ha cur (by simp [drawnPts, hac])
  have hopt : ∀ c : Pt ℚ, OnGrid j c → optEq (some c) (some cur) = true → c = cur := fun c hc h => eq_grid hj hc hcur h
  constructor
  · intro c hk
    have hcg : OnGrid j c := hb c (by simp [drawnPts, hk])
    simp only [isSmoothFrom, hk, hbc, hac] at h
    cases hka : a.kind with
    | quad pc =>
      simp only [hka, continues] at h
      split at h
      · cases pc with
        | none => simp at h
        | some d =>
          simp only [Except.ok.injEq] at h
          have hd : OnGrid j d := ha d (by simp [drawnPts, hka])
          have := continues_grid hj hcur hcg hd h
          simp [Pen.smooth, hctrl, ctrlOf, hka, hp, this]
      · simp at h
    | cubic c1 c2 =>
      simp only [hka, Except.ok.injEq] at h
      have h1 := hopt c hcg h
      exact absurd (by rw [h1, hbc]) (hmix.1 _ _ _ hka hk)
    | move => simp only [hka, Except.ok.injEq] at h; simp [Pen.smooth, hctrl, ctrlOf, hka, hp, hopt c hcg h]
    | close => simp only [hka, Except.ok.injEq] at h; simp [Pen.smooth, hctrl, ctrlOf, hka, hp, hopt c hcg h]
    | line => simp only [hka, Except.ok.injEq] at h; simp [Pen.smooth, hctrl, ctrlOf, hka, hp, hopt c hcg h]
    | arc d => simp only [hka, Except.ok.injEq] at h; simp [Pen.smooth, hctrl, ctrlOf, hka, hp, hopt c hcg h]
  · intro c d2 hk
    have hcg : OnGrid j c := hb c (by simp [drawnPts, hk])
    simp only [isSmoothFrom, hk, hbc, hac] at h
    cases hka : a.kind with
    | cubic pc1 pc =>
      simp only [hka, continues] at h
      split at h
      · cases pc with
        | none => simp at h
        | some d =>
          simp only [Except.ok.injEq] at h
          have hd : OnGrid j d := ha d (by simp [drawnPts, hka])
          have := continues_grid hj hcur hcg hd h
          simp [Pen.smooth, hctrl, ctrlOf, hka, hp, this]
      · simp at h
    | quad c1 =>
      simp only [hka, Except.ok.injEq] at h
      have h1 := hopt c hcg h
      exact absurd (by rw [h1, hbc]) (hmix.2 _ _ _ hka hk)
    | move => simp only [hka, Except.ok.injEq] at h; simp [Pen.smooth, hctrl, ctrlOf, hka, hp, hopt c hcg h]
    | close => simp only [hka, Except.ok.injEq] at h; simp [Pen.smooth, hctrl, ctrlOf, hka, hp, hopt c hcg h]
    | line => simp only [hka, Except.ok.injEq] at h; simp [Pen.smooth, hctrl, ctrlOf, hka, hp, hopt c hcg h]
    | arc d => simp only [hka, Except.ok.injEq] at h; simp [Pen.smooth, hctrl, ctrlOf, hka, hp, hopt c hcg h]

/-- printing and reading with exact coordinates -/
theorem svgD_exact (hmk : ArcsBy mk arcOf) (relative smooth : Option Bool) (m : Seg ℚ) (p : List (Seg ℚ))
    (hm : m.kind = .move) (hconn : Connected Eq (m :: p)) (hends : HasEnds (m :: p)) (hC : ∀ s ∈ p, HasControls s)
    {j : ℕ} (hj : j ≤ 10) (hg : ∀ s ∈ m :: p, ∀ q ∈ drawnPts s, OnGrid j q) (hmix : smooth = some false ∨ NoMixedFlat (m :: p)) :
    ∃ t p1, svgD ar (m :: p) relative smooth = .ok t ∧ parse floatVal mk [] t = (⟨p1, ⟨[], none⟩⟩, none) ∧
      p1.map noSmooth = { redrawn id (arcBack floatVal ar arcOf) (relative.getD m.relative) m with start := none } ::
        p.map (fun s => redrawn id (arcBack floatVal ar arcOf) (relative.getD s.relative) s) := by
  have stopGrid : ∀ s ∈ m :: p, ∀ q, s.stop = some q → OnGrid j q := fun s hs q hq => hg s hs q (by simp [drawnPts, hq])
  refine svgD_parse hmk id relative smooth m p hm hconn hends hC ?_ ?_ ?_
  · intro q hq; exact rdPt_grid hj (stopGrid m (by simp) q hq)
  · refine adj_of_index p m fun i x y hx hy cur hcur q hq pen hpen => ?_
    exact argPt_grid hj (hg y (List.mem_of_getElem? hy) q hq) (stopGrid x (List.mem_of_getElem? hx) cur hcur) _ pen hpen
  · refine adj_of_index p m fun i x y hx hy hsh cur hxc hyc pen hpen hctrl => ?_
    rcases hmix with rfl | hmix
    · simp [Shortened] at hsh
    · have hyp : y ∈ p := by
        have : p[i]? = some y := hy
        exact List.mem_of_getElem? this
      exact smoothFits_grid hj (hg x (List.mem_of_getElem? hx)) (hg y (List.mem_of_getElem? hy)) hxc hyc hpen hctrl (hC y hyp)
        (hmix i x y hx hy) hsh.2

/-- C45: for a connected path that starts with a move and whose coordinates have at most 10 decimals and less than 12 digits,
`d(relative, transformed=False, smooth)` is path data for the same segments: with the same points, the same control points, and the stored
or the given `relative` flags; arcs have the same end points and parameters rounded to 6 digits.

Partial: `d()` itself raises an exception (`C45_default_wrong`), and a curve that starts flat directly after one of the other degree is
read back wrongly unless `smooth=False` (`C45_mixed_wrong`). -/
theorem C45_exact_partial (hmk : ArcsBy mk arcOf) (relative smooth : Option Bool) (m : Seg ℚ) (p : List (Seg ℚ))
    (hm : m.kind = .move) (hst : m.start = none) (hconn : Connected Eq (m :: p)) (hends : HasEnds (m :: p)) (hC : ∀ s ∈ p, HasControls s)
    {j : ℕ} (hj : j ≤ 10) (hg : ∀ s ∈ m :: p, ∀ q ∈ drawnPts s, OnGrid j q) (hmix : smooth = some false ∨ NoMixedFlat (m :: p)) :
    ∃ g : ℚ → ℚ, (∀ x, RoundedTo 6 x (g x)) ∧
    ∃ t p1, pathD ar (m :: p) relative false smooth = .ok t ∧ parse floatVal mk [] t = (⟨p1, ⟨[], none⟩⟩, none) ∧
      p1.map noSmooth = (m :: p).map (fun s => redrawn id
        (fun a b c => arcOf b (g (ar a).rx) (g (ar a).ry) (g (ar a).rot) (ar a).large (ar a).sweep c) (relative.getD s.relative) s) := by
  refine ⟨rd6 floatVal, fun x => ?_, ?_⟩
  · unfold rd6
    rw [(fmtG_number (by norm_num) x).2]
    exact gVal_rounded (by norm_num) x
  · obtain ⟨t, p1, h1, h2, h3⟩ := svgD_exact (ar := ar) hmk relative smooth m p hm hconn hends hC hj hg hmix
    refine ⟨t, p1, h1, h2, ?_⟩
    rw [h3, List.map_cons]
    congr 1
    simp only [redrawn, hst]
    rfl

/-- without an arc, drawing again with the same points changes at most the flags -/
theorem redrawn_id {s : Seg ℚ} (h : ∀ a, s.kind ≠ .arc a) (arc : ArcData ℚ → Pt ℚ → Pt ℚ → ArcData ℚ) (rel : Bool) :
    redrawn id arc rel s = { s with relative := rel, smooth := true } := by
  obtain ⟨k, st, en, r, sm⟩ := s
  cases k <;> simp [redrawn]
  exact absurd rfl (h _)

theorem optEq_refl (p : Option (Pt ℚ)) : optEq p p = true := by
  cases p with
  | none => rfl
  | some p => simp [optEq, Pt.eq, err]

/-- C45: without arcs, the path read from the text equals the original (`==` of paths: the same number of segments, equal one by one). -/
theorem C45_equal_partial (hmk : ArcsBy mk arcOf) (relative smooth : Option Bool) (m : Seg ℚ) (p : List (Seg ℚ))
    (hm : m.kind = .move) (hst : m.start = none) (hconn : Connected Eq (m :: p)) (hends : HasEnds (m :: p)) (hC : ∀ s ∈ p, HasControls s)
    {j : ℕ} (hj : j ≤ 10) (hg : ∀ s ∈ m :: p, ∀ q ∈ drawnPts s, OnGrid j q) (hmix : smooth = some false ∨ NoMixedFlat (m :: p))
    (hna : ∀ s ∈ m :: p, ∀ a, s.kind ≠ .arc a) :
    ∃ t p1, pathD ar (m :: p) relative false smooth = .ok t ∧ parse floatVal mk [] t = (⟨p1, ⟨[], none⟩⟩, none) ∧
      List.Forall₂ (fun s o => s.eq o = true) p1 (m :: p) := by
  obtain ⟨g, -, t, p1, h1, h2, h3⟩ := C45_exact_partial (ar := ar) hmk relative smooth m p hm hst hconn hends hC hj hg hmix
  refine ⟨t, p1, h1, h2, ?_⟩
  generalize m :: p = l at *
  clear h1 h2 hmix hends hconn hm hst hC hg
  induction l generalizing p1 with
  | nil =>
    cases p1 with
    | nil => exact List.Forall₂.nil
    | cons a r => simp at h3
  | cons s l ih =>
    cases p1 with
    | nil => simp at h3
    | cons a r =>
      simp only [List.map_cons, List.cons.injEq] at h3
      refine List.Forall₂.cons ?_ (ih r (fun s hs => hna s (by simp [hs])) h3.2)
      rw [redrawn_id (hna s (by simp))] at h3
      obtain ⟨k, st, en, r1, s1⟩ := a
      have h4 := h3.1
      simp only [noSmooth, Seg.mk.injEq] at h4
      obtain ⟨rfl, rfl, rfl, -, -⟩ := h4
      have := hna s (by simp)
      unfold Seg.eq
      simp only [optEq_refl, Bool.true_and]
      cases hk : s.kind with
      | arc a => exact absurd hk (this a)
      | quad c => simp [optEq_refl]
      | cubic c1 c2 => simp [optEq_refl]
      | _ => rfl

/-- C45 fails for `d()` and `str(path)`: with the default `transformed=True` they raise TypeError. -/
theorem C45_default_wrong (p : List (Seg ℚ)) (relative smooth : Option Bool) : pathD ar p relative true smooth = .error .typeError := rfl

/-- a cubic curve, then a quadratic one whose control point is its start -/
def mixedPath : List (Seg ℚ) :=
  [⟨.move, none, some ⟨0, 0⟩, false, true⟩, ⟨.cubic (some ⟨1, 0⟩) (some ⟨2, 1⟩), some ⟨0, 0⟩, some ⟨3, 3⟩, false, true⟩,
   ⟨.quad (some ⟨3, 3⟩), some ⟨3, 3⟩, some ⟨5, 5⟩, false, true⟩]

/-- C45 fails: the quadratic curve with its control point at its start, after a cubic curve, is printed as T and read back with the
reflected control point of the cubic curve. -/
theorem C45_mixed_wrong (ar : ArcData ℚ → ArcArgs) : Connected Eq mixedPath ∧
    svgD ar mixedPath = .ok "M 0,0 C 1,0 2,1 3,3 T 5,5".toList ∧
    (parse floatVal dummyArc [] "M 0,0 C 1,0 2,1 3,3 T 5,5".toList).1.path[2]? =
      some ⟨.quad (some ⟨4, 5⟩), some ⟨3, 3⟩, some ⟨5, 5⟩, false, true⟩ := by
  refine ⟨?_, ?_, by decide +kernel⟩
  · have : ∃ u, (⟨.move, none, some ⟨0, 0⟩, false, true⟩ : Seg ℚ).stop = some u ∧ Chain Eq Eq u u mixedPath.tail :=
      ⟨⟨0, 0⟩, rfl, ⟨0, 0⟩, ⟨3, 3⟩, rfl, rfl, rfl, by simp [Seg.isClose], ⟨3, 3⟩, ⟨5, 5⟩, rfl, rfl, rfl, by simp [Seg.isClose], trivial⟩
    exact ((connected_iff (fun _ => rfl)).2 this).1
  · have h : svgD (fun _ => ⟨0, 0, 0, false, false⟩) mixedPath = .ok "M 0,0 C 1,0 2,1 3,3 T 5,5".toList := by decide +kernel
    rw [← h]
    rfl

/-- the hypotheses of C45 are met -/
def plainPath : List (Seg ℚ) :=
  [⟨.line, some ⟨1 / 2, 0⟩, some ⟨3, 3⟩, true, true⟩, ⟨.quad (some ⟨4, 5⟩), some ⟨3, 3⟩, some ⟨5, 5⟩, false, true⟩,
   ⟨.close, some ⟨5, 5⟩, some ⟨1 / 2, 0⟩, false, true⟩]

example : ∃ t p1, pathD (fun _ => ⟨1, 1, 0, false, false⟩) (⟨.move, none, some ⟨1 / 2, 0⟩, false, true⟩ :: plainPath) none false none = .ok t ∧
    parse floatVal dummyArc [] t = (⟨p1, ⟨[], none⟩⟩, none) ∧
      List.Forall₂ (fun s o => s.eq o = true) p1 (⟨.move, none, some ⟨1 / 2, 0⟩, false, true⟩ :: plainPath) := by
  have hconn : Connected Eq (⟨.move, none, some ⟨1 / 2, 0⟩, false, true⟩ :: plainPath) ∧
      HasEnds (⟨.move, none, some ⟨1 / 2, 0⟩, false, true⟩ :: plainPath) :=
    (connected_iff (fun _ => rfl)).2 ⟨⟨1 / 2, 0⟩, rfl, ⟨1 / 2, 0⟩, ⟨3, 3⟩, rfl, rfl, rfl, by simp [Seg.isClose], ⟨3, 3⟩, ⟨5, 5⟩, rfl, rfl, rfl,
      by simp [Seg.isClose], ⟨5, 5⟩, ⟨1 / 2, 0⟩, rfl, rfl, rfl, by intro; rfl, trivial⟩
  refine C45_equal_partial (arcOf := fun a _ _ _ _ _ _ => ⟨a, a, a, 0⟩) (fun _ _ _ _ _ _ _ => rfl) none none _ _ rfl rfl hconn.1 hconn.2 ?_
    (j := 1) (by norm_num) ?_ (Or.inr ?_) ?_
  · intro s hs
    simp only [plainPath, List.mem_cons, List.not_mem_nil, or_false] at hs
    rcases hs with rfl | rfl | rfl <;> simp [HasControls]
  · have g : ∀ a b : ℤ, |a| ≤ 100 → |b| ≤ 100 → OnGrid 1 ⟨a / 10, b / 10⟩ := fun a b ha hb =>
      ⟨⟨a, by omega, by norm_num⟩, b, by omega, by norm_num⟩
    have g1 := g 5 0 (by norm_num) (by norm_num)
    have g2 := g 30 30 (by norm_num) (by norm_num)
    have g3 := g 40 50 (by norm_num) (by norm_num)
    have g4 := g 50 50 (by norm_num) (by norm_num)
    norm_num at g1 g2 g3 g4
    intro s hs
    simp only [plainPath, List.mem_cons, List.not_mem_nil, or_false] at hs
    rcases hs with rfl | rfl | rfl | rfl <;> simp [drawnPts, g2, g3, g4] <;> simpa using g1
  · intro i a b ha hb
    match i with
    | 0 => simp [plainPath] at ha hb; subst ha hb; simp
    | 1 => simp [plainPath] at ha hb; subst ha hb; simp
    | 2 => simp [plainPath] at ha hb; subst ha hb; simp
    | n + 3 => simp [plainPath] at hb
  · intro s hs
    simp only [plainPath, List.mem_cons, List.not_mem_nil, or_false] at hs
    rcases hs with rfl | rfl | rfl | rfl <;> simp

/-! ### C85: subpaths -/

/-- a part of a connected path that starts with a move is connected -/
theorem connected_part {pre r post : List (Seg ℚ)} {m : Seg ℚ} (hm : m.kind = .move) (h : Connected Eq (pre ++ (m :: r ++ post)))
    (he : HasEnds (pre ++ (m :: r ++ post))) : Connected Eq (m :: r) ∧ HasEnds (m :: r) := by
  rw [connected_iff (fun _ => rfl)]
  cases pre with
  | nil =>
    obtain ⟨u, hu, hc⟩ := (connected_iff (fun _ => rfl)).1 ⟨h, he⟩
    exact ⟨u, hu, (chain_append.1 hc).1⟩
  | cons s pre =>
    obtain ⟨u, hu, hc⟩ := (connected_iff (fun _ => rfl)).1 ⟨h, he⟩
    obtain ⟨v, w, -, h2, -, -, h5⟩ := (chain_append.1 hc).2
    have : m.isMove = true := by unfold Seg.isMove; rw [hm]
    rw [this, if_pos rfl] at h5
    exact ⟨w, h2, (chain_append.1 h5).1⟩

/-- C85: the text of a subpath that starts with a move is path data for the segments of the subpath, except that the first move has no
start point then.

Partial: under the conditions of `C45_exact_partial` on coordinates and flat curves. The argument `smooth` is ignored
(`C85_smooth_ignored_wrong`), so that it cannot be used to avoid these. -/
theorem C85_subpath_partial (hmk : ArcsBy mk arcOf) (relative smooth : Option Bool) (p : List (Seg ℚ)) (hconn : Connected Eq p)
    (hends : HasEnds p) (a b : ℕ) (hab : a < b) (hb : b ≤ p.length) (m : Seg ℚ) (hm : p[a]? = some m) (hmk' : m.kind = .move)
    (hC : ∀ i s, a ≤ i → i < b → p[i]? = some s → HasControls s)
    {j : ℕ} (hj : j ≤ 10) (hg : ∀ i s, a ≤ i → i < b → p[i]? = some s → ∀ q ∈ drawnPts s, OnGrid j q) (hmix : NoMixedFlat p) :
    ∃ t p1, subpathD ar p (a, b) relative smooth = .ok t ∧ parse floatVal mk [] t = (⟨p1, ⟨[], none⟩⟩, none) ∧ p1.length = b - a ∧
      ∀ i s, i < b - a → p[a + i]? = some s → ∃ s1, p1[i]? = some s1 ∧ s1.stop = s.stop ∧ (0 < i → s1.start = s.start) ∧
        s1.relative = relative.getD s.relative ∧ ((∀ d, s.kind ≠ .arc d) → s1.kind = s.kind) := by
  have hsub : ∀ i, i < b - a → ((p.take b).drop a)[i]? = p[a + i]? := by
    intro i hi
    rw [List.getElem?_drop, List.getElem?_take_of_lt (by omega)]
  have hlen : ((p.take b).drop a).length = b - a := by
    rw [List.length_drop, List.length_take]; omega
  obtain ⟨r, hr⟩ : ∃ r, (p.take b).drop a = m :: r := by
    have h0 := hsub 0 (by omega)
    rw [Nat.add_zero, hm] at h0
    cases hl : (p.take b).drop a with
    | nil => rw [hl] at h0; simp at h0
    | cons x r => rw [hl] at h0; simp at h0; exact ⟨r, by rw [h0]⟩
  have hidx : ∀ s ∈ m :: r, ∃ i, a ≤ i ∧ i < b ∧ p[i]? = some s := by
    intro s hs
    obtain ⟨i, hi⟩ := List.mem_iff_getElem?.1 hs
    rw [← hr] at hi
    have hlt : i < b - a := by
      have := (List.getElem?_eq_some_iff.1 hi).1
      omega
    exact ⟨a + i, by omega, by omega, by rw [← hsub i hlt]; exact hi⟩
  have hp : p = p.take a ++ (m :: r ++ p.drop b) := by
    rw [← hr]
    have h1 : p.take b = p.take a ++ (p.take b).drop a := by
      have := (List.take_append_drop a (p.take b)).symm
      rwa [List.take_take, min_eq_left (by omega)] at this
    rw [← List.append_assoc, ← h1, List.take_append_drop]
  have hcc := connected_part hmk' (hp ▸ hconn) (hp ▸ hends)
  have hnm : NoMixedFlat (m :: r) := by
    intro i x y hx hy
    rw [← hr] at hx hy
    have hlt : i + 1 < b - a := by
      have := (List.getElem?_eq_some_iff.1 hy).1
      omega
    rw [hsub i (by omega)] at hx
    rw [hsub (i + 1) hlt] at hy
    exact hmix (a + i) x y hx hy
  obtain ⟨t, p1, h1, h2, h3⟩ := svgD_exact (ar := ar) hmk relative none m r hmk' hcc.1 hcc.2
    (fun s hs => by obtain ⟨i, q1, q2, q3⟩ := hidx s (by simp [hs]); exact hC i s q1 q2 q3) hj
    (fun s hs => by obtain ⟨i, q1, q2, q3⟩ := hidx s hs; exact hg i s q1 q2 q3) (Or.inr hnm)
  have hl1 : p1.length = b - a := by
    have := congrArg List.length h3
    rw [← hlen, hr]
    simpa using this
  refine ⟨t, p1, by unfold subpathD; simp only; rw [hr]; exact h1, h2, hl1, ?_⟩
  intro i s hi hs
  obtain ⟨s1, hs1⟩ : ∃ s1, p1[i]? = some s1 := ⟨_, List.getElem?_eq_getElem (by omega)⟩
  refine ⟨s1, hs1, ?_⟩
  have h4 := congrArg (fun l => l[i]?) h3
  simp only [List.getElem?_map, hs1, Option.map_some] at h4
  rw [← hsub i hi, hr] at hs
  cases i with
  | zero =>
    simp only [List.getElem?_cons_zero, Option.some.injEq] at hs h4
    subst hs
    obtain ⟨k, st, en, r1, sm⟩ := s1
    simp only [noSmooth, Seg.mk.injEq] at h4
    obtain ⟨rfl, rfl, rfl, rfl, -⟩ := h4
    refine ⟨by simp [redrawn], by simp, rfl, fun h => ?_⟩
    simp [redrawn, hmk']
  | succ i =>
    simp only [List.getElem?_cons_succ] at hs h4
    rw [List.getElem?_map, hs] at h4
    simp only [Option.map_some, Option.some.injEq] at h4
    obtain ⟨k, st, en, r1, sm⟩ := s1
    simp only [noSmooth, Seg.mk.injEq] at h4
    obtain ⟨rfl, rfl, rfl, rfl, -⟩ := h4
    refine ⟨by simp [redrawn], by simp [redrawn], rfl, fun h => ?_⟩
    have := redrawn_id h (arcBack floatVal ar arcOf) (relative.getD s.relative)
    change (redrawn id (arcBack floatVal ar arcOf) (relative.getD s.relative) s).kind = s.kind
    rw [this]

/-- two subpaths of a move and a line -/
def twoSubpaths : List (Seg ℚ) :=
  [⟨.move, none, some ⟨0, 0⟩, false, true⟩, ⟨.line, some ⟨0, 0⟩, some ⟨1, 1⟩, false, true⟩,
   ⟨.move, some ⟨1, 1⟩, some ⟨2, 2⟩, false, true⟩, ⟨.line, some ⟨2, 2⟩, some ⟨3, 3⟩, true, true⟩]

example : subpathD (fun _ => ⟨1, 1, 0, false, false⟩) twoSubpaths (2, 4) = .ok "M 2,2 l 1,1".toList := by decide +kernel

/-- the hypotheses of C85 are met by the second subpath -/
example : ∃ t p1, subpathD (fun _ => ⟨1, 1, 0, false, false⟩) twoSubpaths (2, 4) none none = .ok t ∧
    parse floatVal dummyArc [] t = (⟨p1, ⟨[], none⟩⟩, none) ∧ p1.length = 4 - 2 := by
  have hconn : Connected Eq twoSubpaths ∧ HasEnds twoSubpaths :=
    (connected_iff (fun _ => rfl)).2 ⟨⟨0, 0⟩, rfl, ⟨0, 0⟩, ⟨1, 1⟩, rfl, rfl, rfl, by simp [Seg.isClose], ⟨1, 1⟩, ⟨2, 2⟩, rfl, rfl, rfl,
      by simp [Seg.isClose], ⟨2, 2⟩, ⟨3, 3⟩, rfl, rfl, rfl, by simp [Seg.isClose], trivial⟩
  have hcase : ∀ i s, twoSubpaths[i]? = some s → s ∈ twoSubpaths := fun i s h => List.mem_of_getElem? h
  suffices h : (∀ i s, 2 ≤ i → i < 4 → twoSubpaths[i]? = some s → HasControls s) ∧
      (∀ i s, 2 ≤ i → i < 4 → twoSubpaths[i]? = some s → ∀ q ∈ drawnPts s, OnGrid 0 q) ∧ NoMixedFlat twoSubpaths by
    obtain ⟨t, p1, h1, h2, h3, -⟩ := C85_subpath_partial (ar := fun _ => ⟨1, 1, 0, false, false⟩) (mk := dummyArc)
      (arcOf := fun a _ _ _ _ _ _ => ⟨a, a, a, 0⟩) (fun _ _ _ _ _ _ _ => rfl) none none twoSubpaths hconn.1 hconn.2
      2 4 (by norm_num) (by simp [twoSubpaths]) _ rfl rfl h.1 (j := 0) (by norm_num) h.2.1 h.2.2
    exact ⟨t, p1, h1, h2, h3⟩
  refine ⟨?_, ?_, ?_⟩
  · intro i s _ _ h
    have := hcase i s h
    simp only [twoSubpaths, List.mem_cons, List.not_mem_nil, or_false] at this
    rcases this with rfl | rfl | rfl | rfl <;> simp [HasControls]
  · have g : ∀ a : ℤ, |a| ≤ 100 → OnGrid 0 ⟨a, a⟩ := fun a ha => ⟨⟨a, by omega, by norm_num⟩, a, by omega, by norm_num⟩
    have g0 := g 0 (by norm_num)
    have g1 := g 1 (by norm_num)
    have g2 := g 2 (by norm_num)
    have g3 := g 3 (by norm_num)
    norm_num at g0 g1 g2 g3
    intro i s _ _ h
    have := hcase i s h
    simp only [twoSubpaths, List.mem_cons, List.not_mem_nil, or_false] at this
    rcases this with rfl | rfl | rfl | rfl <;> simp [drawnPts, g0, g1, g2, g3]
  · intro i a b ha hb
    have := hcase _ _ ha
    simp only [twoSubpaths, List.mem_cons, List.not_mem_nil, or_false] at this
    rcases this with rfl | rfl | rfl | rfl <;> simp

/-- C85 fails for the argument `smooth`: `subpath.d(smooth=False)` still uses the short forms. -/
theorem C85_smooth_ignored_wrong (p : List (Seg ℚ)) (w : ℕ × ℕ) (relative s1 s2 : Option Bool) :
    subpathD ar p w relative s1 = subpathD ar p w relative s2 ∧
    subpathD (fun _ => ⟨1, 1, 0, false, false⟩) mixedPath (0, 3) none (some false) = .ok "M 0,0 C 1,0 2,1 3,3 T 5,5".toList := by
  refine ⟨rfl, by decide +kernel⟩

/-! ### C84: text of a single segment -/

/-- C84: `str(segment)` is path data for a move to the segment's start and the segment itself, with coordinates rounded to 12 digits.

Partial: not for curves marked as smooth, which is the default of their constructors (`C84_smooth_wrong`), and not for a close
(`C84_close_wrong`). -/
theorem C84_segment_partial (hmk : ArcsBy mk arcOf) : ∃ (f g : ℚ → ℚ),
    (∀ x, ∃ y, RoundedTo 12 x y ∧ (f x = y ↔ ¬ RoundExponent y)) ∧ (∀ x, RoundedTo 6 x (g x)) ∧
    ∀ (s : Seg ℚ) (q : Pt ℚ), s.start = some q → s.stop ≠ none → HasControls s → s.kind ≠ .close →
      ((∃ c, s.kind = .quad c) ∨ (∃ c1 c2, s.kind = .cubic c1 c2) → s.smooth = false) →
      ∃ t s1, segStr ar s = .ok t ∧ parse floatVal mk [] t =
          (⟨[⟨.move, none, some ⟨f q.x, f q.y⟩, s.relative, true⟩, s1], ⟨[], none⟩⟩, none) ∧
        noSmooth s1 = redrawn (fun q => ⟨f q.x, f q.y⟩)
          (fun a b c => arcOf b (g (ar a).rx) (g (ar a).ry) (g (ar a).rot) (ar a).large (ar a).sweep c) false s := by
  refine ⟨rd12 floatVal, rd6 floatVal, fun x => (C46_coordinate_partial x).2, fun x => ?_, ?_⟩
  · unfold rd6
    rw [(fmtG_number (by norm_num) x).2]
    exact gVal_rounded (by norm_num) x
  · intro s q hq hstop hC hcl hsm
    obtain ⟨u, hu⟩ := Option.ne_none_iff_exists'.1 hstop
    have hd : ∃ a, segD ar s = .ok ((cmdOf floatVal ar false false q s).letter :: a) ∧ ArgsOf floatVal (cmdOf floatVal ar false false q s).args a := by
      obtain ⟨a, h1, h2⟩ := segD_ok (val := floatVal) ar false false q s hstop hC
      refine ⟨a, ?_, h2⟩
      rw [← h1]
      by_cases hk : (∃ c, s.kind = .quad c) ∨ ∃ c1 c2, s.kind = .cubic c1 c2
      · have := hsm hk
        unfold segD
        simp only [this, isAbs, Option.isNone_none, Option.getD_none, Option.getD_some]
        rfl
      · rw [segD_smooth_irrelevant _ _ _ _ (some false) none hk]
        unfold segD
        simp only [isAbs, Option.isNone_none, Option.getD_none]
        rfl
    obtain ⟨a, h1, h2⟩ := hd
    have hstep := step_cmdOf ar arcOf (rdPt floatVal) false false ⟨rdPt floatVal q, rdPt floatVal q, none⟩ q q u s rfl rfl hq hu
      (by intro h; exfalso; apply hcl; unfold Seg.isClose at h; split at h <;> simp_all) hC (fun _ _ => rfl) (by simp)
    set c := cmdOf floatVal ar false false q s with hc
    have hw : Writes floatVal [.move s.relative (rdPt floatVal q), c]
        ((if s.relative then 'm' else 'M') :: ' ' :: (ptText q ++ ' ' :: (c.letter :: a))) := by
      have e1 : CmdText floatVal (Cmd.move s.relative (rdPt floatVal q)).implied [c] (' ' :: (c.letter :: a)) := by
        have := CmdText.letter (Cmd.move s.relative (rdPt floatVal q)).implied [' '] c [] (a ++ []) [] (allSep_one (Or.inl rfl))
          (h2 [] (by intro d hd; simp at hd)) (CmdText.nil c.implied [] (by intro d hd; simp at hd))
        simpa using this
      have := CmdText.letter none [] (Cmd.move s.relative (rdPt floatVal q)) [c] (' ' :: ptText q ++ ' ' :: (c.letter :: a))
        (' ' :: (c.letter :: a)) (by intro d hd; simp at hd) (argsOf_pt q _ (sepHead_cons (Or.inl rfl) _)) e1
      unfold Writes
      simpa [Cmd.letter] using this
    have hwf : WellFormed [.move s.relative (rdPt floatVal q), c] :=
      ⟨⟨_, _, _, rfl⟩, by simp [Cmd.endsInClose], fun h => absurd h (cmdOf_not_completed _ _ _ _ _), trivial⟩
    refine ⟨_, (step arcOf true ⟨rdPt floatVal q, rdPt floatVal q, none⟩ c).1, ?_, C38_text_meaning hmk hwf hw, hstep.1⟩
    simp only [segStr, h1, bind, Except.bind, hq]

/-- C84 fails for curves as their constructors make them: the first control point is not printed. -/
theorem C84_smooth_wrong :
    segStr ar ⟨.quad (some ⟨1, 1⟩), some ⟨0, 0⟩, some ⟨2, 0⟩, false, true⟩ = .ok "M 0,0 T 2,0".toList ∧
    segStr ar ⟨.cubic (some ⟨1, 1⟩) (some ⟨2, 1⟩), some ⟨0, 0⟩, some ⟨3, 0⟩, false, true⟩ = .ok "M 0,0 S 2,1 3,0".toList := by
  have h : segStr (fun _ => ⟨0, 0, 0, false, false⟩) ⟨.quad (some ⟨1, 1⟩), some ⟨0, 0⟩, some ⟨2, 0⟩, false, true⟩ = .ok "M 0,0 T 2,0".toList ∧
    segStr (fun _ => ⟨0, 0, 0, false, false⟩) ⟨.cubic (some ⟨1, 1⟩) (some ⟨2, 1⟩), some ⟨0, 0⟩, some ⟨3, 0⟩, false, true⟩ =
      .ok "M 0,0 S 2,1 3,0".toList := by decide +kernel
  rw [← h.1, ← h.2]
  exact ⟨rfl, rfl⟩

/-- C84 fails for a close: the end point is not printed, so the text goes back to the start of the segment instead. -/
theorem C84_close_wrong : segStr ar ⟨.close, some ⟨5, 5⟩, some ⟨0, 0⟩, false, true⟩ = .ok "M 5,5 Z".toList ∧
    (parse floatVal dummyArc [] "M 5,5 Z".toList).1.path[1]? = some ⟨.close, some ⟨5, 5⟩, some ⟨5, 5⟩, false, true⟩ := by
  refine ⟨?_, by decide +kernel⟩
  have h : segStr (fun _ => ⟨0, 0, 0, false, false⟩) ⟨.close, some ⟨5, 5⟩, some ⟨0, 0⟩, false, true⟩ = .ok "M 5,5 Z".toList := by
    decide +kernel
  rw [← h]; rfl

/-- `segment.d(current_point)` without the argument `relative` does the opposite of the segment's flag: an absolute line is printed as a
relative one, and a relative one as an absolute one. -/
theorem C84_flag_wrong (ar : ArcData ℚ → ArcArgs) : segD ar ⟨.line, some ⟨1, 1⟩, some ⟨3, 4⟩, false, true⟩ (some ⟨1, 1⟩) = .ok "l 2,3".toList ∧
    segD ar ⟨.line, some ⟨1, 1⟩, some ⟨3, 4⟩, true, true⟩ (some ⟨1, 1⟩) = .ok "L 3,4".toList := by
  have h : segD (fun _ => ⟨0, 0, 0, false, false⟩) ⟨.line, some ⟨1, 1⟩, some ⟨3, 4⟩, false, true⟩ (some ⟨1, 1⟩) = .ok "l 2,3".toList ∧
    segD (fun _ => ⟨0, 0, 0, false, false⟩) ⟨.line, some ⟨1, 1⟩, some ⟨3, 4⟩, true, true⟩ (some ⟨1, 1⟩) = .ok "L 3,4".toList := by
    decide +kernel
  rw [← h.1, ← h.2]
  exact ⟨rfl, rfl⟩

example : segStr (fun _ => ⟨0, 0, 0, false, false⟩) ⟨.line, some ⟨1, 1⟩, some ⟨5 / 2, -3⟩, true, true⟩ = .ok "m 1,1 L 2.5,-3".toList := by
  decide +kernel
example : HasControls ⟨.quad (some ⟨1, 1⟩), some ⟨0, 0⟩, some ⟨2, 0⟩, false, false⟩ := by simp [HasControls]

end Svgio.Props
