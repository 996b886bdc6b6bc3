import Verif.Spec.PrintDrift
import Verif.Props.PrintPath
import Verif.Props.FloatPath

/-!
C157: a path saved with relative coordinates and read again.
-/

namespace Svgio.Props

open Spec Print Lexer

variable {val : List Char → ℚ} {mk : Path.ArcCtor ℚ} {arcOf : ArcOf ℚ} {ar : ArcData ℚ → ArcArgs}

namespace PrintDrift

theorem near_mono {e f : ℚ} {p q : Pt ℚ} (h : PtNear e p q) (hef : e ≤ f) : PtNear f p q := ⟨h.1.trans hef, h.2.trans hef⟩

/-- the remembered control point is of the same sort and near -/
def CtrlNear (g : ℚ) : Option (Curve × Pt ℚ) → Option (Curve × Pt ℚ) → Prop
  | none, none => True
  | some (k', c'), some (k, c) => k' = k ∧ PtNear g c' c
  | _, _ => False

/-- the segment `s'` was read for `s`: its points are near, and an arc is made from its end points and the rounded parameters -/
def Back (val : List Char → ℚ) (ar : ArcData ℚ → ArcArgs) (arcOf : ArcOf ℚ) (e g : ℚ) (rel : Bool) (s' s : Seg ℚ) : Prop :=
  SegNear e g (noSmooth s') { s with relative := rel, smooth := true } ∧
  ∀ a, s.kind = .arc a → ∃ u v, s'.start = some u ∧ s'.stop = some v ∧ s'.kind = .arc (arcBack val ar arcOf a u v)

theorem pt_near {pen : Pen ℚ} {cur q : Pt ℚ} {e d : ℚ} (rel : Bool) (he : 0 ≤ e) (hc : PtNear e pen.cur cur)
    (h : PtNear d (argPt val rel cur q) (written rel cur q)) : PtNear (e + d) (pen.pt rel (argPt val rel cur q)) q := by
  cases rel with
  | false => exact near_mono h (by linarith)
  | true =>
    obtain ⟨h1, h2⟩ := h
    obtain ⟨c1, c2⟩ := hc
    simp only [written, if_true] at h1 h2
    simp only [Pen.pt, if_true]
    generalize argPt val true cur q = w at *
    refine ⟨?_, ?_⟩
    · calc |pen.cur.x + w.x - q.x| = |(pen.cur.x - cur.x) + (w.x - (q.x - cur.x))| := by congr 1; ring
        _ ≤ _ := (abs_add_le _ _).trans (by linarith)
    · calc |pen.cur.y + w.y - q.y| = |(pen.cur.y - cur.y) + (w.y - (q.y - cur.y))| := by congr 1; ring
        _ ≤ _ := (abs_add_le _ _).trans (by linarith)

/-- the implied control point of a short form is near -/
def SmoothNear (g : ℚ) (pen : Pen ℚ) (s : Seg ℚ) : Prop :=
  (∀ c, s.kind = .quad (some c) → PtNear g (pen.smooth true .quad) c) ∧
  (∀ c1 c2, s.kind = .cubic (some c1) c2 → PtNear g (pen.smooth true .cubic) c1)

theorem step_near (ar : ArcData ℚ → ArcArgs) (arcOf : ArcOf ℚ) (rel sm : Bool) (pen : Pen ℚ) (z cur u : Pt ℚ)
    (s : Seg ℚ) {e e' g' d : ℚ} (he : 0 ≤ e) (hd : 0 ≤ d) (hee : e + d ≤ e') (heg : e' ≤ g')
    (hcur : PtNear e pen.cur cur) (hz : PtNear e pen.start z) (hst : s.start = some cur) (hu : s.stop = some u)
    (hcl : s.isClose = true → z = u) (hc : HasControls s)
    (hR : ∀ q ∈ writtenPts s, PtNear d (argPt val rel cur q) (written rel cur q))
    (hsm : sm = true → SmoothNear g' pen s) :
    Back val ar arcOf e' g' rel (step arcOf true pen (cmdOf val ar rel sm cur s)).1 s ∧
      PtNear e' (step arcOf true pen (cmdOf val ar rel sm cur s)).2.cur u ∧
      PtNear e' (step arcOf true pen (cmdOf val ar rel sm cur s)).2.start (if s.isMove then u else z) ∧
      CtrlNear g' (step arcOf true pen (cmdOf val ar rel sm cur s)).2.ctrl (ctrlOf id s) := by
  obtain ⟨k, st, en, r0, s0⟩ := s
  simp only at hst hu
  subst hst hu
  have near : ∀ q ∈ writtenPts (⟨k, some cur, some u, r0, s0⟩ : Seg ℚ), PtNear e' (pen.pt rel (argPt val rel cur q)) q :=
    fun q hq => near_mono (pt_near rel he hcur (hR q hq)) hee
  have hRu : Seg.isClose (⟨k, some cur, some u, r0, s0⟩ : Seg ℚ) = false → PtNear e' (pen.pt rel (argPt val rel cur u)) u :=
    fun h => near u (by simp [writtenPts, drawnPts, h])
  have hcur' : PtNear e' pen.cur cur := near_mono hcur (by linarith)
  have hz' : PtNear e' pen.start z := near_mono hz (by linarith)
  cases k with
  | move =>
    have hRu := hRu rfl
    exact ⟨⟨⟨trivial, hcur', hRu, rfl, rfl⟩, by simp⟩, hRu, hRu, trivial⟩
  | close =>
    have := hcl rfl
    subst this
    exact ⟨⟨⟨trivial, hcur', hz', rfl, rfl⟩, by simp⟩, hz', hz', trivial⟩
  | line =>
    have hRu := hRu rfl
    exact ⟨⟨⟨trivial, hcur', hRu, rfl, rfl⟩, by simp⟩, hRu, hz', trivial⟩
  | quad c =>
    obtain ⟨c, rfl⟩ := Option.ne_none_iff_exists'.1 (show c ≠ none from hc)
    have hRu := hRu rfl
    have hRc := near_mono (near c (by simp [writtenPts, drawnPts, Seg.isClose])) heg
    cases sm with
    | true =>
      have := (hsm rfl).1 c rfl
      exact ⟨⟨⟨this, hcur', hRu, rfl, rfl⟩, by simp⟩, hRu, hz', rfl, this⟩
    | false => exact ⟨⟨⟨hRc, hcur', hRu, rfl, rfl⟩, by simp⟩, hRu, hz', rfl, hRc⟩
  | cubic c1 c2 =>
    obtain ⟨h1, h2⟩ := (show c1 ≠ none ∧ c2 ≠ none from hc)
    obtain ⟨c1, rfl⟩ := Option.ne_none_iff_exists'.1 h1
    obtain ⟨c2, rfl⟩ := Option.ne_none_iff_exists'.1 h2
    have hRu := hRu rfl
    have hRc1 := near_mono (near c1 (by simp [writtenPts, drawnPts, Seg.isClose])) heg
    have hRc2 := near_mono (near c2 (by simp [writtenPts, drawnPts, Seg.isClose])) heg
    cases sm with
    | true =>
      have := (hsm rfl).2 c1 _ rfl
      exact ⟨⟨⟨⟨this, hRc2⟩, hcur', hRu, rfl, rfl⟩, by simp⟩, hRu, hz', rfl, hRc2⟩
    | false => exact ⟨⟨⟨⟨hRc1, hRc2⟩, hcur', hRu, rfl, rfl⟩, by simp⟩, hRu, hz', rfl, hRc2⟩
  | arc a =>
    have hRu := hRu rfl
    refine ⟨⟨⟨trivial, hcur', hRu, rfl, rfl⟩, ?_⟩, hRu, hz', trivial⟩
    rintro b ⟨⟩
    exact ⟨_, _, rfl, rfl, rfl⟩

/-- the list of segments read, from position `n` on -/
def BackFrom (val : List Char → ℚ) (ar : ArcData ℚ → ArcArgs) (arcOf : ArcOf ℚ) (relative : Option Bool) (E G : ℕ → ℚ) :
    ℕ → List (Seg ℚ) → List (Seg ℚ) → Prop
  | _, [], [] => True
  | n, s' :: r', s :: r => Back val ar arcOf (E (n + 1)) (G (n + 1)) (relative.getD s.relative) s' s ∧
      BackFrom val ar arcOf relative E G (n + 1) r' r
  | _, _, _ => False

theorem err_eq : (err : ℚ) = 1 / 10 ^ 12 := rfl

theorem eq_near {p q : Pt ℚ} (h : p.eq q = true) : PtNear (1 / 10 ^ 12) p q := by
  simp only [Pt.eq, Bool.and_eq_true, decide_eq_true_eq] at h
  exact h

theorem optEq_near {p q : Pt ℚ} (h : optEq (some p) (some q) = true) : PtNear (1 / 10 ^ 12) p q := eq_near h

theorem near_trans {e f : ℚ} {p q r : Pt ℚ} (h1 : PtNear e p q) (h2 : PtNear f r q) : PtNear (e + f) p r := by
  refine ⟨?_, ?_⟩
  · calc |p.x - r.x| = |(p.x - q.x) - (r.x - q.x)| := by congr 1; ring
      _ ≤ _ := (abs_sub _ _).trans (add_le_add h1.1 h2.1)
  · calc |p.y - r.y| = |(p.y - q.y) - (r.y - q.y)| := by congr 1; ring
      _ ≤ _ := (abs_sub _ _).trans (add_le_add h1.2 h2.2)

theorem reflect_abs {s' s d' d c e g f : ℚ} (h1 : |s' - s| ≤ e) (h2 : |d' - d| ≤ g) (h3 : |c - s - (s - d)| ≤ f) :
    |2 * s' - d' - c| ≤ 2 * e + g + f := by
  rw [abs_le] at *
  constructor <;> linarith [h1.1, h1.2, h2.1, h2.2, h3.1, h3.2]

theorem reflect_near {s' s d' d c : Pt ℚ} {e g : ℚ} (h1 : PtNear e s' s) (h2 : PtNear g d' d) (h : (c.sub s).eq (s.sub d) = true) :
    PtNear (2 * e + g + 1 / 10 ^ 12) ⟨2 * s'.x - d'.x, 2 * s'.y - d'.y⟩ c :=
  ⟨reflect_abs h1.1 h2.1 (eq_near h).1, reflect_abs h1.2 h2.2 (eq_near h).2⟩

theorem smooth_near {a b : Seg ℚ} {cur : Pt ℚ} {pen : Pen ℚ} {e g g' : ℚ} (hg : 0 ≤ g) (he : 0 ≤ e) (hgg : 2 * e + g + 1 / 10 ^ 12 ≤ g')
    (hac : a.stop = some cur) (hbc : b.start = some cur) (hp : PtNear e pen.cur cur)
    (hctrl : CtrlNear g pen.ctrl (ctrlOf id a)) (hca : HasControls a)
    (hmix : (∀ c1 c2 c q, a.kind = .cubic c1 c2 → b.kind = .quad (some c) → b.start = some q → ¬ PtNear (1 / 10 ^ 12) c q) ∧
      (∀ c c1 c2 q, a.kind = .quad c → b.kind = .cubic (some c1) c2 → b.start = some q → ¬ PtNear (1 / 10 ^ 12) c1 q))
    (h : isSmoothFrom b (some a) = .ok true) : SmoothNear g' pen b := by
  have flat : ∀ c k, optEq (some c) (some cur) = true → ctrlOf id a = none → PtNear g' (pen.smooth true k) c := by
    intro c k hc h0
    have : pen.ctrl = none := by
      rw [h0] at hctrl
      cases hh : pen.ctrl with
      | none => rfl
      | some x => rw [hh] at hctrl; exact hctrl.elim
    unfold Pen.smooth
    rw [this]
    exact near_mono (near_trans hp (optEq_near hc)) (by linarith)
  have bend : ∀ c d k k0, (c.sub cur).eq (cur.sub d) = true → ctrlOf id a = some (k0, d) → PtNear g' (pen.smooth true k) c := by
    intro c d k k0 hc h0
    rw [h0] at hctrl
    unfold Pen.smooth
    cases hh : pen.ctrl with
    | none => rw [hh] at hctrl; exact hctrl.elim
    | some x =>
      rw [hh] at hctrl
      simp only [or_true, if_true]
      exact near_mono (reflect_near hp hctrl.2 hc) hgg
  constructor
  · intro c hk
    simp only [isSmoothFrom, hk, hbc, hac] at h
    cases hka : a.kind with
    | quad pc =>
      simp only [hka, continues] at h
      split at h
      · cases pc with
        | none => simp at h
        | some d =>
          simp only [Except.ok.injEq] at h
          exact bend c d _ _ h (by simp [ctrlOf, hka]; rfl)
      · simp at h
    | cubic c1 c2 =>
      simp only [hka, Except.ok.injEq] at h
      exact absurd (optEq_near h) (hmix.1 _ _ _ _ hka hk hbc)
    | move => simp only [hka, Except.ok.injEq] at h; exact flat c _ h (by simp [ctrlOf, hka])
    | close => simp only [hka, Except.ok.injEq] at h; exact flat c _ h (by simp [ctrlOf, hka])
    | line => simp only [hka, Except.ok.injEq] at h; exact flat c _ h (by simp [ctrlOf, hka])
    | arc d => simp only [hka, Except.ok.injEq] at h; exact flat c _ h (by simp [ctrlOf, hka])
  · intro c d2 hk
    simp only [isSmoothFrom, hk, hbc, hac] at h
    cases hka : a.kind with
    | cubic pc1 pc =>
      simp only [hka, continues] at h
      split at h
      · cases pc with
        | none => simp at h
        | some d =>
          simp only [Except.ok.injEq] at h
          exact bend c d _ _ h (by simp [ctrlOf, hka]; rfl)
      · simp at h
    | quad c1 =>
      simp only [hka, Except.ok.injEq] at h
      exact absurd (optEq_near h) (hmix.2 _ _ _ _ hka hk hbc)
    | move => simp only [hka, Except.ok.injEq] at h; exact flat c _ h (by simp [ctrlOf, hka])
    | close => simp only [hka, Except.ok.injEq] at h; exact flat c _ h (by simp [ctrlOf, hka])
    | line => simp only [hka, Except.ok.injEq] at h; exact flat c _ h (by simp [ctrlOf, hka])
    | arc d => simp only [hka, Except.ok.injEq] at h; exact flat c _ h (by simp [ctrlOf, hka])

/-- the error of end points, and of control points -/
def ends (d : ℚ) (n : ℕ) : ℚ := n * d
def controls (d : ℚ) (n : ℕ) : ℚ := n ^ 2 * d + n / 10 ^ 12

theorem ends_nonneg {d : ℚ} (hd : 0 ≤ d) (n : ℕ) : 0 ≤ ends d n := by unfold ends; positivity
theorem controls_nonneg {d : ℚ} (hd : 0 ≤ d) (n : ℕ) : 0 ≤ controls d n := by unfold controls; positivity
theorem ends_succ (d : ℚ) (n : ℕ) : ends d n + d ≤ ends d (n + 1) := by unfold ends; push_cast; linarith
theorem ends_controls {d : ℚ} (hd : 0 ≤ d) (n : ℕ) : ends d (n + 1) ≤ controls d (n + 1) := by
  unfold ends controls
  push_cast
  have h0 : (0 : ℚ) ≤ n := Nat.cast_nonneg n
  have h1 : ((n : ℚ) + 1) * d ≤ (n + 1) ^ 2 * d := mul_le_mul_of_nonneg_right (by nlinarith) hd
  have h2 : (0 : ℚ) ≤ ((n : ℚ) + 1) / 10 ^ 12 := by positivity
  linarith
theorem controls_succ {d : ℚ} (hd : 0 ≤ d) (n : ℕ) : 2 * ends d n + controls d n + 1 / 10 ^ 12 ≤ controls d (n + 1) := by
  unfold ends controls
  push_cast
  have : ((n : ℚ) + 1) ^ 2 * d + ((n : ℚ) + 1) / 10 ^ 12 - (2 * (n * d) + (n ^ 2 * d + n / 10 ^ 12) + 1 / 10 ^ 12) = d := by ring
  linarith

theorem parts_near (ar : ArcData ℚ → ArcArgs) (arcOf : ArcOf ℚ) (relative smooth : Option Bool) {d : ℚ} (hd : 0 ≤ d) (p : List (Seg ℚ)) :
    ∀ (n : ℕ) (prev : Seg ℚ) (z e : Pt ℚ) (pen : Pen ℚ), Chain Eq Eq z e p → (∀ s ∈ p, HasControls s) → HasControls prev →
      prev.stop = some e → PtNear (ends d n) pen.cur e → PtNear (ends d n) pen.start z → CtrlNear (controls d n) pen.ctrl (ctrlOf id prev) →
      (Adj (fun a b => ∀ cur, a.stop = some cur → ∀ q ∈ writtenPts b,
        PtNear d (argPt val (relative.getD b.relative) cur q) (written (relative.getD b.relative) cur q)) prev p) →
      (Adj (fun a b => Shortened smooth (some a) b →
        (∀ c1 c2 c q, a.kind = .cubic c1 c2 → b.kind = .quad (some c) → b.start = some q → ¬ PtNear (1 / 10 ^ 12) c q) ∧
        (∀ c c1 c2 q, a.kind = .quad c → b.kind = .cubic (some c1) c2 → b.start = some q → ¬ PtNear (1 / 10 ^ 12) c1 q)) prev p) →
      ∃ ts cs, partsD ar relative smooth (some prev) (some e) p = .ok ts ∧ (∀ l, CmdText val l cs (joinTail ts)) ∧
        BackFrom val ar arcOf relative (ends d) (controls d) n (draw arcOf true pen cs) p ∧ Completed cs := by
  induction p with
  | nil =>
    intro n prev z e pen _ _ _ _ _ _ _ _ _
    exact ⟨[], [], rfl, fun l => CmdText.nil l [] (by intro c hc; simp at hc), trivial, trivial⟩
  | cons s r ih =>
    intro n prev z e pen hch hC hpc hpe hpen hstart hctrl hA hS
    obtain ⟨v, u, hv, hu, rfl, hcl, hch⟩ := hch
    have hs := hC s (by simp)
    obtain ⟨sm, a, h1, h2, h3⟩ := partD_ok (val := val) ar relative smooth (some prev) e s (by rw [hu]; simp) (by rw [hv]; simp) hs
      (by rintro p ⟨⟩; exact ⟨hpc, by rw [hpe]; simp⟩)
    have hstep := step_near (val := val) ar arcOf (relative.getD s.relative) sm pen z e u s (ends_nonneg hd n) hd (ends_succ d n)
      (ends_controls hd n) hpen hstart hv hu hcl hs (fun q hq => hA.1 e hpe q hq)
      (fun h => smooth_near (controls_nonneg hd n) (ends_nonneg hd n) (controls_succ hd n) hpe hv hpen hctrl hpc (hS.1 (h3 h)) (h3 h).2)
    obtain ⟨ts, cs, g1, g2, g3, g4⟩ := ih (n + 1) s (if s.isMove then u else z) u _ hch (fun t ht => hC t (by simp [ht])) hs hu
      hstep.2.1 hstep.2.2.1 hstep.2.2.2 hA.2 hS.2
    refine ⟨((cmdOf val ar (relative.getD s.relative) sm e s).letter :: a) :: ts, cmdOf val ar (relative.getD s.relative) sm e s :: cs, ?_, ?_, ?_, ?_⟩
    · rw [partsD, h1, hu]
      simp only [bind, Except.bind, g1]
    · intro l
      have := CmdText.letter l [' '] _ cs (a ++ joinTail ts) (joinTail ts) (allSep_one (Or.inl rfl)) (h2 _ (sepHead_tail ts)) (g2 _)
      simpa [joinTail] using this
    · rw [draw]
      exact ⟨hstep.1, g3⟩
    · exact ⟨fun h => absurd h (cmdOf_not_completed _ _ _ _ _), g4⟩

theorem back_length {relative : Option Bool} {E G : ℕ → ℚ} : ∀ {n : ℕ} {p' p : List (Seg ℚ)},
    BackFrom val ar arcOf relative E G n p' p → p'.length = p.length
  | _, [], [], _ => rfl
  | _, _ :: _, _ :: _, h => by simp [back_length h.2]
  | _, [], _ :: _, h => h.elim
  | _, _ :: _, [], h => h.elim

theorem back_get {relative : Option Bool} {E G : ℕ → ℚ} : ∀ {n : ℕ} {p' p : List (Seg ℚ)},
    BackFrom val ar arcOf relative E G n p' p → ∀ {i : ℕ} {s' s : Seg ℚ}, p'[i]? = some s' → p[i]? = some s →
      Back val ar arcOf (E (n + i + 1)) (G (n + i + 1)) (relative.getD s.relative) s' s
  | _, [], [], _, _, _, _, h, _ => by simp at h
  | n, a :: r', b :: r, h, i, s', s, h1, h2 => by
    cases i with
    | zero =>
      simp only [List.getElem?_cons_zero, Option.some.injEq] at h1 h2
      subst h1 h2
      exact h.1
    | succ i =>
      rw [List.getElem?_cons_succ] at h1 h2
      have := back_get h.2 h1 h2
      rwa [show n + 1 + i + 1 = n + (i + 1) + 1 by ring] at this
  | _, [], _ :: _, h, _, _, _, _, _ => h.elim
  | _, _ :: _, [], h, _, _, _, _, _ => h.elim

/-- a printed number that is printed well is off by half a unit in the twelfth digit -/
theorem rd12_near {x M : ℚ} (h : PrintsWell x) (hx : |x| ≤ M) : |rd12 floatVal x - x| ≤ M / (2 * 10 ^ 11) := by
  obtain ⟨-, y, h1, h2⟩ := C46_coordinate_partial x
  have hy : rd12 floatVal x = y := h2.2 (h y h1)
  rw [hy]
  have h0 := abs_nonneg x
  rcases h1 with ⟨rfl, rfl⟩ | ⟨j, k, a1, -, -, a4, -⟩
  · simp only [sub_zero, abs_zero]
    rw [abs_zero] at hx
    positivity
  · refine a4.trans ?_
    have : (10 : ℚ) ^ (j + (12 : ℕ) - 1) = 10 ^ j * 10 ^ 11 := by
      rw [show j + ((12 : ℕ) : ℤ) - 1 = j + (11 : ℕ) by push_cast; ring, zpow_add₀ (by norm_num), zpow_natCast]
    rw [this] at a1
    rw [le_div_iff₀ (by positivity)]
    linarith

theorem argPt_near {rel : Bool} {cur q : Pt ℚ} {M : ℚ} (hx : PrintsWell (written rel cur q).x) (hy : PrintsWell (written rel cur q).y)
    (h1 : |(written rel cur q).x| ≤ M) (h2 : |(written rel cur q).y| ≤ M) :
    PtNear (M / (2 * 10 ^ 11)) (argPt floatVal rel cur q) (written rel cur q) := by
  cases rel
  · exact ⟨rd12_near hx h1, rd12_near hy h2⟩
  · exact ⟨rd12_near hx h1, rd12_near hy h2⟩

/-- Printing a connected path that starts with a move, and reading the text, when the numbers that are written are off by `d` -/
theorem svgD_near (hmk : ArcsBy mk arcOf) (relative smooth : Option Bool) (m : Seg ℚ) (p : List (Seg ℚ)) {d : ℚ} (hd : 0 ≤ d)
    (hm : m.kind = .move) (hst : m.start = none) (hconn : Connected Eq (m :: p)) (hends : HasEnds (m :: p)) (hC : ∀ s ∈ p, HasControls s)
    (hR0 : ∀ q, m.stop = some q → PtNear d (rdPt val q) q)
    (hA : Adj (fun a b => ∀ cur, a.stop = some cur → ∀ q ∈ writtenPts b,
        PtNear d (argPt val (relative.getD b.relative) cur q) (written (relative.getD b.relative) cur q)) m p)
    (hS : Adj (fun a b => Shortened smooth (some a) b →
        (∀ c1 c2 c q, a.kind = .cubic c1 c2 → b.kind = .quad (some c) → b.start = some q → ¬ PtNear (1 / 10 ^ 12) c q) ∧
        (∀ c c1 c2 q, a.kind = .quad c → b.kind = .cubic (some c1) c2 → b.start = some q → ¬ PtNear (1 / 10 ^ 12) c1 q)) m p) :
    ∃ t p1, svgD ar (m :: p) relative smooth = .ok t ∧ parse val mk [] t = (⟨p1, ⟨[], none⟩⟩, none) ∧
      BackFrom val ar arcOf relative (ends d) (controls d) 0 p1 (m :: p) := by
  obtain ⟨u, hu, hch⟩ := (connected_iff (fun _ => rfl)).1 ⟨hconn, hends⟩
  have hmc : HasControls m := by unfold HasControls; rw [hm]; trivial
  have hctrl : ctrlOf id m = none := by unfold ctrlOf; rw [hm]
  have h1d : ends d 1 = d := by unfold ends; simp
  have hru : PtNear (ends d 1) (rdPt val u) u := by rw [h1d]; exact hR0 u hu
  obtain ⟨ts, cs, g1, g2, g3, g4⟩ := parts_near (val := val) ar arcOf relative smooth hd p 1 m u u ⟨rdPt val u, rdPt val u, none⟩ hch hC hmc hu
    hru hru (by rw [hctrl]; trivial) hA hS
  obtain ⟨a, h1, h2⟩ := segD_ok (val := val) ar (relative.getD m.relative) false ⟨0, 0⟩ m (by rw [hu]; simp) hmc
  have hcmd : cmdOf val ar (relative.getD m.relative) false ⟨0, 0⟩ m = .move (relative.getD m.relative) (rdPt val u) := by
    unfold cmdOf argPt
    rw [hm, hu]
    simp only [Option.getD_some, sub_zero_pt, ite_self]
  have hpart : partD ar relative smooth none (some ⟨0, 0⟩) m = .ok ((cmdOf val ar (relative.getD m.relative) false ⟨0, 0⟩ m).letter :: a) := by
    rw [← h1]
    unfold partD
    rw [hm]
    simp only
    exact segD_smooth_irrelevant _ _ _ _ _ _ (by rw [hm]; simp)
  rw [hcmd] at hpart h2
  have hw : Writes val (.move (relative.getD m.relative) (rdPt val u) :: cs)
      (joinSp (((Cmd.move (relative.getD m.relative) (rdPt val u)).letter :: a) :: ts)) := by
    rw [joinSp_cons]
    exact CmdText.letter none [] _ cs _ (joinTail ts) (by intro c hc; simp at hc) (h2 _ (sepHead_tail ts)) (g2 _)
  have hwf : WellFormed (.move (relative.getD m.relative) (rdPt val u) :: cs) := ⟨⟨_, _, _, rfl⟩, by simp [Cmd.endsInClose], g4⟩
  refine ⟨_, _, ?_, C38_text_meaning hmk hwf hw, ?_⟩
  · simp only [svgD, partsD, hpart, bind, Except.bind, hu, g1]
  · simp only [meaning]
    refine ⟨⟨⟨?_, ?_, ?_, rfl, rfl⟩, ?_⟩, g3⟩
    · show KindNear _ _ m.kind
      rw [hm]; trivial
    · show OptNear _ _ m.start
      rw [hst]; trivial
    · show OptNear _ _ m.stop
      rw [hu]; exact hru
    · intro b hb; rw [hm] at hb; simp at hb

theorem pathNear_of_back {relative : Option Bool} {E G : ℕ → ℚ} {p' p : List (Seg ℚ)} (h : BackFrom val ar arcOf relative E G 0 p' p) :
    PathNear E G (p'.map noSmooth) (p.map (reflagged relative)) := by
  refine ⟨by simp [back_length h], fun i s' s h1 h2 => ?_⟩
  rw [List.getElem?_map, Option.map_eq_some_iff] at h1 h2
  obtain ⟨a', h1, rfl⟩ := h1
  obtain ⟨a, h2, rfl⟩ := h2
  have := (back_get h h1 h2).1
  rw [Nat.zero_add] at this
  exact this

end PrintDrift

open PrintDrift

/-- every number written for the path `l` is printed well; the first point is written as it is, the others as `relative` and the flags of
the segments tell -/
def WrittenWell (relative : Option Bool) (l : List (Seg ℚ)) : Prop :=
  (∀ s q, l[0]? = some s → s.stop = some q → PrintsWell q.x ∧ PrintsWell q.y) ∧
  ∀ (i : ℕ) (a b : Seg ℚ) (cur q : Pt ℚ), l[i]? = some a → l[i + 1]? = some b → a.stop = some cur → q ∈ writtenPts b →
    PrintsWell (written (relative.getD b.relative) cur q).x ∧ PrintsWell (written (relative.getD b.relative) cur q).y

theorem written_le {rel : Bool} {cur q : Pt ℚ} {M : ℚ} (hc : |cur.x| ≤ M ∧ |cur.y| ≤ M) (hq : |q.x| ≤ M ∧ |q.y| ≤ M) :
    |(written rel cur q).x| ≤ 2 * M ∧ |(written rel cur q).y| ≤ 2 * M := by
  have := abs_nonneg q.x
  cases rel
  · exact ⟨by show |q.x| ≤ _; linarith [hq.1], by show |q.y| ≤ _; linarith [hq.1, hq.2]⟩
  · exact ⟨(abs_sub _ _).trans (by linarith [hq.1, hc.1]), (abs_sub _ _).trans (by linarith [hq.2, hc.2])⟩

theorem svgD_drift (hmk : ArcsBy mk arcOf) (relative smooth : Option Bool) (m : Seg ℚ) (p : List (Seg ℚ)) {M : ℚ} (hM0 : 0 ≤ M)
    (hm : m.kind = .move) (hst : m.start = none) (hconn : Connected Eq (m :: p)) (hends : HasEnds (m :: p)) (hC : ∀ s ∈ p, HasControls s)
    (hM : ∀ s ∈ m :: p, ∀ q ∈ drawnPts s, |q.x| ≤ M ∧ |q.y| ≤ M) (hW : WrittenWell relative (m :: p))
    (hmix : smooth = some false ∨ NoMixedFlatWithin (1 / 10 ^ 12) (m :: p)) :
    ∃ t p1, svgD ar (m :: p) relative smooth = .ok t ∧ parse floatVal mk [] t = (⟨p1, ⟨[], none⟩⟩, none) ∧
      BackFrom floatVal ar arcOf relative (ends (M / 10 ^ 11)) (controls (M / 10 ^ 11)) 0 p1 (m :: p) := by
  have hstop : ∀ s ∈ m :: p, ∀ q, s.stop = some q → |q.x| ≤ M ∧ |q.y| ≤ M := fun s hs q hq => hM s hs q (by simp [drawnPts, hq])
  have hmono : M / (2 * 10 ^ 11) ≤ M / 10 ^ 11 := by gcongr; norm_num
  have h2 : 2 * M / (2 * 10 ^ 11) = M / 10 ^ 11 := by ring
  refine svgD_near hmk relative smooth m p (by positivity) hm hst hconn hends hC ?_ ?_ ?_
  · intro q hq
    have hq' := hstop m (by simp) q hq
    obtain ⟨w1, w2⟩ := hW.1 m q rfl hq
    exact near_mono ⟨rd12_near w1 hq'.1, rd12_near w2 hq'.2⟩ hmono
  · refine adj_of_index p m fun i a b ha hb cur hcur q hq => ?_
    have hq' : q ∈ drawnPts b := by
      unfold writtenPts at hq
      split at hq
      · simp at hq
      · exact hq
    obtain ⟨w1, w2⟩ := hW.2 i a b cur q ha hb hcur hq
    obtain ⟨b1, b2⟩ := written_le (rel := relative.getD b.relative) (hstop a (List.mem_of_getElem? ha) cur hcur)
      (hM b (List.mem_of_getElem? hb) q hq')
    rw [← h2]
    exact argPt_near w1 w2 b1 b2
  · refine adj_of_index p m fun i a b ha hb hsh => ?_
    rcases hmix with rfl | hmix
    · simp [Shortened] at hsh
    · exact hmix i a b ha hb

/-- C157: for a connected path that starts with a move and whose coordinates are at most `M` in size, `d(relative, transformed=False, smooth)`
is path data for a path with as many segments of the same classes, whatever the flags. End points of the n-th segment are off by at most n
units in the twelfth digit of `M`, control points by at most n² such units and n times the tolerance of `==`; an arc is made from its end
points and its parameters rounded to 6 digits.

The numbers written must not be ones whose exponent is shortened (C46), and short forms of flat curves after curves of the other degree are
excluded (C45); without this the result is wrong, see `C157_small_step_wrong` and `C45_mixed_wrong`. -/
theorem C157_drift (hmk : ArcsBy mk arcOf) (relative smooth : Option Bool) (m : Seg ℚ) (p : List (Seg ℚ)) {M : ℚ} (hM0 : 0 ≤ M)
    (hm : m.kind = .move) (hst : m.start = none) (hconn : Connected Eq (m :: p)) (hends : HasEnds (m :: p)) (hC : ∀ s ∈ p, HasControls s)
    (hM : ∀ s ∈ m :: p, ∀ q ∈ drawnPts s, |q.x| ≤ M ∧ |q.y| ≤ M) (hW : WrittenWell relative (m :: p))
    (hmix : smooth = some false ∨ NoMixedFlatWithin (1 / 10 ^ 12) (m :: p)) :
    ∃ g : ℚ → ℚ, (∀ x, RoundedTo 6 x (g x)) ∧
    ∃ t p1, pathD ar (m :: p) relative false smooth = .ok t ∧ parse floatVal mk [] t = (⟨p1, ⟨[], none⟩⟩, none) ∧
      PathNear (fun n => n * (M / 10 ^ 11)) (fun n => n ^ 2 * (M / 10 ^ 11) + n / 10 ^ 12) (p1.map noSmooth) ((m :: p).map (reflagged relative)) ∧
      ∀ (i : ℕ) (s' s : Seg ℚ) (a : ArcData ℚ), p1[i]? = some s' → (m :: p)[i]? = some s → s.kind = .arc a → ∃ u v, s'.start = some u ∧ s'.stop = some v ∧
        s'.kind = .arc (arcOf u (g (ar a).rx) (g (ar a).ry) (g (ar a).rot) (ar a).large (ar a).sweep v) := by
  refine ⟨rd6 floatVal, fun x => ?_, ?_⟩
  · unfold rd6
    rw [(fmtG_number (by norm_num) x).2]
    exact gVal_rounded (by norm_num) x
  · obtain ⟨t, p1, h1, h2, h3⟩ := svgD_drift (ar := ar) hmk relative smooth m p hM0 hm hst hconn hends hC hM hW hmix
    exact ⟨t, p1, h1, h2, pathNear_of_back h3, fun i s' s a hs' hs ha => (back_get h3 hs' hs).2 a ha⟩

/-- numbers that are 0 or neither very small nor very large are printed well -/
theorem printsWell_plain {x : ℚ} (h : x = 0 ∨ 1 / 10 ^ 9 ≤ |x|) (h2 : |x| ≤ 10 ^ 13) : PrintsWell x := by
  rintro y hy ⟨e, he, ⟨k, hk⟩, e1, e2, -⟩
  rcases hy with ⟨rfl, rfl⟩ | ⟨j, l, a1, a2, a3, a4, -⟩
  · rw [abs_zero] at e1; exact absurd e1 (not_le.2 (by positivity))
  have hx0 : x ≠ 0 := by
    rintro rfl
    rw [abs_zero] at a1; exact absurd a1 (not_le.2 (by positivity))
  have hx : 1 / 10 ^ 9 ≤ |x| := h.resolve_left hx0
  have hpos : (0 : ℚ) < (10 : ℚ) ^ j := by positivity
  have p1 : (10 : ℚ) ^ (j + (12 : ℕ) - 1) = 10 ^ j * 10 ^ 11 := by
    rw [show j + ((12 : ℕ) : ℤ) - 1 = j + (11 : ℕ) by push_cast; ring, zpow_add₀ (by norm_num), zpow_natCast]
  rw [p1] at a1
  have hyx : |x| - |y| ≤ (10 : ℚ) ^ j / 2 := by
    have := abs_sub_abs_le_abs_sub x y
    rw [abs_sub_comm] at this
    linarith
  have hxy : |y| - |x| ≤ (10 : ℚ) ^ j / 2 := (abs_sub_abs_le_abs_sub y x).trans a4
  have lo : |x| / 2 ≤ |y| := by linarith
  have hi : |y| ≤ 2 * |x| := by linarith
  rcases he with he | he
  · -- the exponent is at most -10
    have he' : e + 1 ≤ -9 := by omega
    have hy9 : |y| < 1 / 10 ^ 9 := by
      refine lt_of_lt_of_le e2 ?_
      have := zpow_le_zpow_right₀ (by norm_num : (1 : ℚ) ≤ 10) he'
      refine this.trans (le_of_eq ?_)
      norm_num
    -- but rounding does not cross a power of ten
    have hj : -9 ≤ j + 11 := by
      have : (10 : ℚ) ^ (-9 : ℤ) < 10 ^ (j + (12 : ℕ)) := lt_of_le_of_lt (by norm_num at hx ⊢; exact hx) a2
      have := (zpow_lt_zpow_iff_right₀ (by norm_num : (1 : ℚ) < 10)).1 this
      push_cast at this
      omega
    have hl : (10 : ℚ) ^ 11 - 1 / 2 ≤ |(l : ℚ)| := by
      have : |y| = |(l : ℚ)| * 10 ^ j := by rw [a3, abs_mul, abs_of_pos hpos]
      have h3 : (10 : ℚ) ^ 11 * 10 ^ j - 10 ^ j / 2 ≤ |(l : ℚ)| * 10 ^ j := by rw [← this]; linarith
      have : ((10 : ℚ) ^ 11 - 1 / 2) * 10 ^ j ≤ |(l : ℚ)| * 10 ^ j := by linarith
      exact le_of_mul_le_mul_right this hpos
    have hl2 : (10 : ℚ) ^ 11 ≤ |(l : ℚ)| := by
      have h4 : ((10 ^ 11 - 1 : ℤ) : ℚ) < ((|l| : ℤ) : ℚ) := by push_cast; linarith
      have h5 : (10 ^ 11 - 1 : ℤ) < |l| := by exact_mod_cast h4
      have h6 : (10 ^ 11 : ℤ) ≤ |l| := by omega
      have h7 : ((10 ^ 11 : ℤ) : ℚ) ≤ ((|l| : ℤ) : ℚ) := by exact_mod_cast h6
      push_cast at h7
      exact h7
    have : (1 : ℚ) / 10 ^ 9 ≤ |y| := by
      rw [a3, abs_mul, abs_of_pos hpos]
      calc (1 : ℚ) / 10 ^ 9 = 10 ^ (-9 : ℤ) := by norm_num
        _ ≤ 10 ^ (j + 11) := zpow_le_zpow_right₀ (by norm_num) hj
        _ = 10 ^ 11 * 10 ^ j := by
          rw [zpow_add₀ (by norm_num), mul_comm, show (11 : ℤ) = ((11 : ℕ) : ℤ) by norm_num, zpow_natCast]
        _ ≤ _ := mul_le_mul_of_nonneg_right hl2 hpos.le
    linarith
  · have he' : 20 ≤ e := by omega
    have : (10 : ℚ) ^ (20 : ℤ) ≤ |y| := (zpow_le_zpow_right₀ (by norm_num) he').trans e1
    norm_num at this h2
    linarith

/-- C157, a plain case of the hypothesis: coordinates up to 10^12, and every number written is 0 or at least 10^-9 in size -/
theorem C157_plain (relative : Option Bool) (m : Seg ℚ) (p : List (Seg ℚ)) {M : ℚ} (hM1 : M ≤ 10 ^ 12)
    (hM : ∀ s ∈ m :: p, ∀ q ∈ drawnPts s, |q.x| ≤ M ∧ |q.y| ≤ M)
    (h0 : ∀ q, m.stop = some q → (q.x = 0 ∨ 1 / 10 ^ 9 ≤ |q.x|) ∧ (q.y = 0 ∨ 1 / 10 ^ 9 ≤ |q.y|))
    (hW : ∀ (i : ℕ) (a b : Seg ℚ) (cur q : Pt ℚ), (m :: p)[i]? = some a → (m :: p)[i + 1]? = some b → a.stop = some cur → q ∈ writtenPts b →
      ((written (relative.getD b.relative) cur q).x = 0 ∨ 1 / 10 ^ 9 ≤ |(written (relative.getD b.relative) cur q).x|) ∧
      ((written (relative.getD b.relative) cur q).y = 0 ∨ 1 / 10 ^ 9 ≤ |(written (relative.getD b.relative) cur q).y|)) :
    WrittenWell relative (m :: p) := by
  have hstop : ∀ s ∈ m :: p, ∀ q, s.stop = some q → |q.x| ≤ M ∧ |q.y| ≤ M := fun s hs q hq => hM s hs q (by simp [drawnPts, hq])
  constructor
  · intro s q hs hq
    obtain rfl : m = s := by simpa using hs
    have hb := hstop m (by simp) q hq
    obtain ⟨w1, w2⟩ := h0 q hq
    exact ⟨printsWell_plain w1 (by linarith [hb.1]), printsWell_plain w2 (by linarith [hb.2])⟩
  · intro i a b cur q ha hb hcur hq
    have hq' : q ∈ drawnPts b := by
      unfold writtenPts at hq
      split at hq
      · simp at hq
      · exact hq
    obtain ⟨w1, w2⟩ := hW i a b cur q ha hb hcur hq
    obtain ⟨b1, b2⟩ := written_le (rel := relative.getD b.relative) (hstop a (List.mem_of_getElem? ha) cur hcur)
      (hM b (List.mem_of_getElem? hb) q hq')
    exact ⟨printsWell_plain w1 (by linarith), printsWell_plain w2 (by linarith)⟩

namespace PrintDrift

theorem opt_trans {e f : ℚ} : ∀ {a b c : Option (Pt ℚ)}, OptNear e a b → OptNear f b c → OptNear (e + f) a c
  | none, none, none, _, _ => trivial
  | some a, some b, some c, h1, h2 => by
    refine ⟨?_, ?_⟩
    · calc |a.x - c.x| = |(a.x - b.x) + (b.x - c.x)| := by congr 1; ring
        _ ≤ _ := (abs_add_le _ _).trans (add_le_add h1.1 h2.1)
    · calc |a.y - c.y| = |(a.y - b.y) + (b.y - c.y)| := by congr 1; ring
        _ ≤ _ := (abs_add_le _ _).trans (add_le_add h1.2 h2.2)
  | some _, none, _, h, _ => h.elim
  | none, some _, _, h, _ => h.elim
  | some _, some _, none, _, h => h.elim
  | none, none, some _, _, h => h.elim

theorem opt_mono {e f : ℚ} (hef : e ≤ f) : ∀ {a b : Option (Pt ℚ)}, OptNear e a b → OptNear f a b
  | none, none, _ => trivial
  | some _, some _, h => near_mono h hef
  | some _, none, h => h.elim
  | none, some _, h => h.elim

theorem kind_trans {e f : ℚ} {a b c : Kind ℚ} (h1 : KindNear e a b) (h2 : KindNear f b c) : KindNear (e + f) a c := by
  cases a <;> cases b <;> first | exact h1.elim | (cases c <;> first | exact h2.elim | trivial | exact opt_trans h1 h2 | exact ⟨opt_trans h1.1 h2.1, opt_trans h1.2 h2.2⟩)

theorem kind_mono {e f : ℚ} (hef : e ≤ f) {a b : Kind ℚ} (h : KindNear e a b) : KindNear f a b := by
  cases a <;> cases b <;> first | exact h.elim | trivial | exact opt_mono hef h | exact ⟨opt_mono hef h.1, opt_mono hef h.2⟩

theorem opt_in {e M : ℚ} : ∀ {a b : Option (Pt ℚ)}, OptNear e a b → PtIn M b → PtIn (M + e) a
  | none, none, _, _ => by intro q hq; simp at hq
  | some a, some b, h1, h2 => by
    rintro q ⟨⟩
    obtain ⟨b1, b2⟩ := h2 b rfl
    refine ⟨?_, ?_⟩
    · calc |a.x| = |b.x + (a.x - b.x)| := by congr 1; ring
        _ ≤ _ := (abs_add_le _ _).trans (add_le_add b1 h1.1)
    · calc |a.y| = |b.y + (a.y - b.y)| := by congr 1; ring
        _ ≤ _ := (abs_add_le _ _).trans (add_le_add b2 h1.2)
  | some _, none, h, _ => h.elim
  | none, some _, h, _ => h.elim

theorem ptIn_mono {M N : ℚ} (h : M ≤ N) {a : Option (Pt ℚ)} (ha : PtIn M a) : PtIn N a :=
  fun q hq => ⟨(ha q hq).1.trans h, (ha q hq).2.trans h⟩

theorem seg_in {e g M : ℚ} (heg : e ≤ g) {s' s : Seg ℚ} (h : SegNear e g s' s) (hin : SegIn M s) : SegIn (M + g) s' := by
  obtain ⟨k', st', en', r', m'⟩ := s'
  obtain ⟨k, st, en, r, m⟩ := s
  obtain ⟨hk, h1, h2, -, -⟩ := h
  obtain ⟨i1, i2, i3⟩ := hin
  refine ⟨ptIn_mono (by linarith) (opt_in h1 i1), ptIn_mono (by linarith) (opt_in h2 i2), ?_⟩
  cases k' <;> cases k <;> first | exact hk.elim | trivial | exact opt_in hk i3 | exact ⟨opt_in hk.1 i3.1, opt_in hk.2 i3.2⟩

theorem segIn_noSmooth {M : ℚ} {s : Seg ℚ} : SegIn M (noSmooth s) ↔ SegIn M s := Iff.rfl

/-- the points of a connected path are end points or control points -/
theorem segIn_of_drawn {M : ℚ} {m : Seg ℚ} {p : List (Seg ℚ)} (hst : m.start = none) (hconn : Connected Eq (m :: p)) (hends : HasEnds (m :: p))
    (hM : ∀ s ∈ m :: p, ∀ q ∈ drawnPts s, |q.x| ≤ M ∧ |q.y| ≤ M) : ∀ s ∈ m :: p, SegIn M s := by
  intro s hs
  refine ⟨?_, fun q hq => hM s hs q (by simp [drawnPts, hq]), ?_⟩
  · obtain ⟨i, hi⟩ := List.mem_iff_getElem?.1 hs
    cases i with
    | zero =>
      simp only [List.getElem?_cons_zero, Option.some.injEq] at hi
      subst hi
      intro q hq
      rw [hst] at hq; simp at hq
    | succ i =>
      have hlt : i < (m :: p).length := by
        have := (List.getElem?_eq_some_iff.1 hi).1
        omega
      obtain ⟨u, v, hu, hv, rfl⟩ := hconn.1 i _ s (List.getElem?_eq_getElem hlt) hi
      intro q hq
      rw [hv] at hq
      obtain rfl := Option.some.inj hq
      exact hM _ (List.getElem_mem hlt) u (by simp [drawnPts, hu])
  · cases hk : s.kind with
    | quad c => intro q hq; exact hM s hs q (by simp [drawnPts, hk, hq])
    | cubic c1 c2 => exact ⟨fun q hq => hM s hs q (by simp [drawnPts, hk, hq]), fun q hq => hM s hs q (by simp [drawnPts, hk, hq])⟩
    | _ => trivial

end PrintDrift

/-- C157, with floats: a path of at most 10000 segments, saved and read with floats, comes back with as many segments of the same classes;
end points of the n-th segment are off by at most n units in the twelfth digit of `M`, but for the floats, which take at most a thousandth
part more. -/
theorem C157_loaded {mk' : Path.ArcCtor ℚ} (F : FloatRounding) (hmk' : ArcsAlike mk' mk) (hmk : ArcsBy mk arcOf) (relative smooth : Option Bool)
    (m : Seg ℚ) (p : List (Seg ℚ)) {M : ℚ} (hM0 : 1 ≤ M)
    (hm : m.kind = .move) (hst : m.start = none) (hconn : Connected Eq (m :: p)) (hends : HasEnds (m :: p)) (hC : ∀ s ∈ p, HasControls s)
    (hM : ∀ s ∈ m :: p, ∀ q ∈ drawnPts s, |q.x| ≤ M ∧ |q.y| ≤ M) (hW : WrittenWell relative (m :: p))
    (hmix : smooth = some false ∨ NoMixedFlatWithin (1 / 10 ^ 12) (m :: p)) (hlen : (m :: p).length ≤ 10 ^ 4) :
    ∃ t, pathD ar (m :: p) relative false smooth = .ok t ∧ (Flt.parse F floatVal mk' [] t).2 = none ∧
      (Flt.parse F floatVal mk' [] t).1.lx.rest = [] ∧
      PathNear (fun n => n * (1001 / 1000 * M / 10 ^ 11)) (fun n => n ^ 2 * (1001 / 1000 * M / 10 ^ 11) + n / 10 ^ 12)
        ((Flt.parse F floatVal mk' [] t).1.path.map noSmooth) ((m :: p).map (reflagged relative)) := by
  have hM0' : (0 : ℚ) ≤ M := by linarith
  obtain ⟨t, p1, h1, h2, h3⟩ := svgD_drift (ar := ar) hmk relative smooth m p hM0' hm hst hconn hends hC hM hW hmix
  have hnear := pathNear_of_back h3
  have hl := back_length h3
  have hd : (0 : ℚ) ≤ M / 10 ^ 11 := by positivity
  have hin : ∀ s ∈ p1, SegIn (2 * M) s := by
    intro s hs
    obtain ⟨i, hi⟩ := List.mem_iff_getElem?.1 hs
    have hlt : i < (m :: p).length := by
      rw [← hl]; exact (List.getElem?_eq_some_iff.1 hi).1
    have hg := (back_get h3 hi (List.getElem?_eq_getElem hlt)).1
    have hs0 := segIn_of_drawn hst hconn hends hM _ (List.getElem_mem hlt)
    have hsin := seg_in (M := M) (by rw [Nat.zero_add]; exact ends_controls hd i) hg hs0
    have hc : controls (M / 10 ^ 11) (0 + i + 1) ≤ M := by
      rw [Nat.zero_add]
      unfold controls
      have hi' : ((i + 1 : ℕ) : ℚ) ≤ 10 ^ 4 := by exact_mod_cast (show i + 1 ≤ 10 ^ 4 by omega)
      have hi0 : (0 : ℚ) ≤ ((i + 1 : ℕ) : ℚ) := Nat.cast_nonneg _
      have h5 : ((i + 1 : ℕ) : ℚ) ^ 2 * (M / 10 ^ 11) ≤ (10 ^ 4) ^ 2 * (M / 10 ^ 11) := by gcongr
      have h6 : ((i + 1 : ℕ) : ℚ) / 10 ^ 12 ≤ 10 ^ 4 / 10 ^ 12 := by gcongr
      norm_num at h5 h6 ⊢
      linarith
    rw [← segIn_noSmooth]
    obtain ⟨g1, g2, g3⟩ := hsin
    refine ⟨ptIn_mono (by linarith) g1, ptIn_mono (by linarith) g2, ?_⟩
    cases hk : (noSmooth s).kind with
    | quad c => rw [hk] at g3; exact ptIn_mono (by linarith) g3
    | cubic c1 c2 => rw [hk] at g3; exact ⟨ptIn_mono (by linarith) g3.1, ptIn_mono (by linarith) g3.2⟩
    | _ => trivial
  have hf := C156_drift F hmk' floatVal [] t (M := 2 * M) (by linarith) (by rw [h2]; show p1.length ≤ _; rw [hl]; exact hlen.trans (by norm_num))
    (by rw [h2]; exact hin)
  rw [h2] at hf
  obtain ⟨f1, f2, f3⟩ := hf
  refine ⟨t, h1, f1, f2, ?_⟩
  have htiny : 2 * M / 2 ^ 51 + 1 / 2 ^ 1072 ≤ 1 / 1000 * M / 10 ^ 11 := by
    have : (1 : ℚ) / 2 ^ 1072 ≤ 1 / 2 ^ 60 := by
      apply one_div_le_one_div_of_le (by positivity)
      exact pow_le_pow_right₀ (by norm_num) (by norm_num)
    generalize (1 : ℚ) / 2 ^ 1072 = w at *
    norm_num at this ⊢
    linarith
  generalize hw : 2 * M / 2 ^ 51 + 1 / 2 ^ 1072 = w at *
  generalize hq : (Flt.parse F floatVal mk' [] t).1.path = q at *
  refine ⟨by rw [List.length_map, List.length_map, f3.1]; exact hl, fun i s' s hs' hs => ?_⟩
  rw [List.getElem?_map, Option.map_eq_some_iff] at hs'
  obtain ⟨a', ha', rfl⟩ := hs'
  have hlt : i < p1.length := by
    have := f3.1
    simp only at this
    rw [← this]; exact (List.getElem?_eq_some_iff.1 ha').1
  have n1 := f3.2 i a' p1[i] ha' (List.getElem?_eq_getElem hlt)
  have n2 := hnear.2 i (noSmooth p1[i]) s (by rw [List.getElem?_map, List.getElem?_eq_getElem hlt]; rfl) hs
  have hi0 : (0 : ℚ) ≤ ((i + 1 : ℕ) : ℚ) := Nat.cast_nonneg _
  have b1 : ((i + 1 : ℕ) : ℚ) * w + ends (M / 10 ^ 11) (i + 1) ≤ ((i + 1 : ℕ) : ℚ) * (1001 / 1000 * M / 10 ^ 11) := by
    unfold ends
    rw [← mul_add]
    refine mul_le_mul_of_nonneg_left ?_ hi0
    linarith
  have b2 : ((i + 1 : ℕ) : ℚ) ^ 2 * w + controls (M / 10 ^ 11) (i + 1) ≤
      ((i + 1 : ℕ) : ℚ) ^ 2 * (1001 / 1000 * M / 10 ^ 11) + ((i + 1 : ℕ) : ℚ) / 10 ^ 12 := by
    unfold controls
    rw [← add_assoc, ← mul_add]
    have := mul_le_mul_of_nonneg_left (show w + M / 10 ^ 11 ≤ 1001 / 1000 * M / 10 ^ 11 by linarith) (sq_nonneg ((i + 1 : ℕ) : ℚ))
    linarith
  exact ⟨kind_mono b2 (kind_trans n1.kind n2.kind), opt_mono b1 (opt_trans n1.start n2.start), opt_mono b1 (opt_trans n1.stop n2.stop),
    n1.relative.trans n2.relative, n2.smooth⟩

/-- C157 fails for small steps: the relative step of 1.5e-10 is written as 1.5E-1, and the point read is 0.15 away. -/
theorem C157_small_step_wrong (ar : ArcData ℚ → ArcArgs) :
    pathD ar [⟨.move, none, some ⟨1, 0⟩, false, true⟩, ⟨.line, some ⟨1, 0⟩, some ⟨1 + 15 / 10 ^ 11, 0⟩, false, true⟩] (some true) false =
      .ok "m 1,0 l 1.5E-1,0".toList ∧
    Path.currentPoint (parse floatVal dummyArc [] "m 1,0 l 1.5E-1,0".toList).1.path = some ⟨115 / 100, 0⟩ := by
  refine ⟨?_, by decide +kernel⟩
  have h : pathD (fun _ => ⟨0, 0, 0, false, false⟩)
      [⟨.move, none, some ⟨1, 0⟩, false, true⟩, ⟨.line, some ⟨1, 0⟩, some ⟨1 + 15 / 10 ^ 11, 0⟩, false, true⟩] (some true) false =
      .ok "m 1,0 l 1.5E-1,0".toList := by decide +kernel
  rw [← h]
  rfl

/-- C45 fails for relative output of coordinates of twelve digits whose differences have more: the path that is read is not the original. -/
theorem C45_relative_wrong (ar : ArcData ℚ → ArcArgs) :
    TwelveDigits (123456789012 / 10 ^ 12) ∧ TwelveDigits (100000123456 / 10 ^ 6) ∧
    pathD ar [⟨.move, none, some ⟨123456789012 / 10 ^ 12, 0⟩, false, true⟩,
      ⟨.line, some ⟨123456789012 / 10 ^ 12, 0⟩, some ⟨100000123456 / 10 ^ 6, 0⟩, false, true⟩] (some true) false =
      .ok "m 0.123456789012,0 l 99999.9999992,0".toList ∧
    Path.currentPoint (parse floatVal dummyArc [] "m 0.123456789012,0 l 99999.9999992,0".toList).1.path =
      some ⟨100000123456 / 10 ^ 6 - 10988 / 10 ^ 12, 0⟩ ∧
    (⟨100000123456 / 10 ^ 6 - 10988 / 10 ^ 12, 0⟩ : Pt ℚ).eq ⟨100000123456 / 10 ^ 6, 0⟩ = false := by
  refine ⟨⟨-12, 123456789012, by norm_num, by norm_num⟩, ⟨-6, 100000123456, by norm_num, by norm_num⟩, ?_, by decide +kernel, by decide +kernel⟩
  have h : pathD (fun _ => ⟨0, 0, 0, false, false⟩) [⟨.move, none, some ⟨123456789012 / 10 ^ 12, 0⟩, false, true⟩,
      ⟨.line, some ⟨123456789012 / 10 ^ 12, 0⟩, some ⟨100000123456 / 10 ^ 6, 0⟩, false, true⟩] (some true) false =
      .ok "m 0.123456789012,0 l 99999.9999992,0".toList := by decide +kernel
  rw [← h]
  rfl

/-- a path with coordinates that cannot be printed exactly, with a smooth curve -/
def thirdsPath : List (Seg ℚ) :=
  [⟨.quad (some ⟨1, 0⟩), some ⟨1 / 3, 0⟩, some ⟨4 / 3, 1⟩, true, true⟩, ⟨.quad (some ⟨5 / 3, 2⟩), some ⟨4 / 3, 1⟩, some ⟨7 / 3, 2⟩, true, true⟩,
   ⟨.close, some ⟨7 / 3, 2⟩, some ⟨1 / 3, 0⟩, false, true⟩]

/-- the hypotheses of C157 are met by it, with relative output and short forms as stored -/
example : ∃ t, pathD (fun _ => ⟨1, 1, 0, false, false⟩) (⟨.move, none, some ⟨1 / 3, 0⟩, false, true⟩ :: thirdsPath) none false none = .ok t ∧
    (Flt.parse doubles floatVal dummyArc [] t).2 = none ∧ (Flt.parse doubles floatVal dummyArc [] t).1.lx.rest = [] ∧
    PathNear (fun n => n * (1001 / 1000 * 3 / 10 ^ 11)) (fun n => n ^ 2 * (1001 / 1000 * 3 / 10 ^ 11) + n / 10 ^ 12)
      ((Flt.parse doubles floatVal dummyArc [] t).1.path.map noSmooth)
      ((⟨.move, none, some ⟨1 / 3, 0⟩, false, true⟩ :: thirdsPath).map (reflagged none)) := by
  have hconn : Connected Eq (⟨.move, none, some ⟨1 / 3, 0⟩, false, true⟩ :: thirdsPath) ∧
      HasEnds (⟨.move, none, some ⟨1 / 3, 0⟩, false, true⟩ :: thirdsPath) :=
    (connected_iff (fun _ => rfl)).2 ⟨⟨1 / 3, 0⟩, rfl, ⟨1 / 3, 0⟩, ⟨4 / 3, 1⟩, rfl, rfl, rfl, by simp [Seg.isClose], ⟨4 / 3, 1⟩, ⟨7 / 3, 2⟩, rfl, rfl, rfl,
      by simp [Seg.isClose], ⟨7 / 3, 2⟩, ⟨1 / 3, 0⟩, rfl, rfl, rfl, by simp [Seg.isMove], trivial⟩
  have hM : ∀ s ∈ (⟨.move, none, some ⟨1 / 3, 0⟩, false, true⟩ :: thirdsPath : List (Seg ℚ)), ∀ q ∈ drawnPts s, |q.x| ≤ 3 ∧ |q.y| ≤ 3 := by
    intro s hs q hq
    simp only [thirdsPath, List.mem_cons, List.not_mem_nil, or_false] at hs
    rcases hs with rfl | rfl | rfl | rfl
    · simp [drawnPts] at hq; subst hq; norm_num [abs_of_pos]
    · simp [drawnPts] at hq; rcases hq with rfl | rfl <;> norm_num [abs_of_pos]
    · simp [drawnPts] at hq; rcases hq with rfl | rfl <;> norm_num [abs_of_pos]
    · simp [drawnPts] at hq; subst hq; norm_num [abs_of_pos]
  refine C157_loaded doubles (fun _ _ _ _ _ _ _ _ _ _ _ _ _ _ _ e => by simp [dummyArc]) (mk := dummyArc) (arcOf := fun a _ _ _ _ _ _ => ⟨a, a, a, 0⟩)
    (fun _ _ _ _ _ _ _ => rfl) none none _ _
    (by norm_num) rfl rfl hconn.1 hconn.2 ?_ hM ?_ (Or.inr ?_) (by simp [thirdsPath])
  · simp [thirdsPath, HasControls]
  · refine C157_plain none _ _ (M := 3) (by norm_num) hM ?_ ?_
    · rintro q ⟨⟩
      norm_num [abs_of_pos]
    · intro i a b cur q ha hb hcur hq
      rcases i with _ | _ | _ | i
      all_goals simp [thirdsPath] at ha hb
      all_goals subst ha hb
      all_goals simp at hcur
      all_goals subst hcur
      all_goals simp [writtenPts, drawnPts, Seg.isClose] at hq
      all_goals rcases hq with rfl | rfl
      all_goals norm_num [written, abs_of_pos]
  · intro i a b ha hb
    rcases i with _ | _ | _ | i
    all_goals simp [thirdsPath] at ha hb
    all_goals subst ha hb
    all_goals simp

end Svgio.Props
