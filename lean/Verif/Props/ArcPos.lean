import Verif.Model.ArcPos
import Verif.Props.ArcCtorMore

/-!
C168: arcs made with positional arguments.
-/

namespace Svgio.Arc

open Real Spec

/-- the point that an argument stands for, if any: complex numbers are points, and numbers are complex numbers -/
inductive StandsFor : PosArg → Option (Pt ℝ) → Prop
  | none : StandsFor .none none
  | point (p : Pt ℝ) : StandsFor (.point p) (some p)
  | complex (x y : ℝ) : StandsFor (.complex x y) (some ⟨x, y⟩)
  | number (x : ℝ) : StandsFor (.number x) (some ⟨x, 0⟩)

/-- the flag that an argument stands for: set unless it is None or 0 -/
inductive FlagIs : PosArg → Bool → Prop
  | none : FlagIs .none false
  | zero : FlagIs (.number 0) false
  | set {x : ℝ} (h : x ≠ 0) : FlagIs (.number x) true

/-- the same arguments by name: `start`, `end`, `center`, `prx`, `pry` in this order; what is given by name already stays -/
def byName (pts : List (Option (Pt ℝ))) (k : CtorArgs) : CtorArgs :=
  { k with
    start := k.start.or (pts.getD 0 none)
    stop := k.stop.or (pts.getD 1 none)
    center := k.center.or (pts.getD 2 none)
    prx := k.prx.or (pts.getD 3 none)
    pry := k.pry.or (pts.getD 4 none) }

theorem StandsFor.pt {a : PosArg} {o : Option (Pt ℝ)} (h : StandsFor a o) : a.pt? = o := by cases h <;> rfl

theorem FlagIs.truth {a : PosArg} {b : Bool} (h : FlagIs a b) : a.truth = b := by
  cases h with
  | none => rfl
  | zero => simp [PosArg.truth]
  | set h => simp [PosArg.truth, h]

theorem posAt_pt {args : List PosArg} {pts : List (Option (Pt ℝ))} (h : List.Forall₂ StandsFor args pts) (i : ℕ) :
    (posAt args i).pt? = pts.getD i none := by
  unfold posAt
  induction h generalizing i with
  | nil => simp [PosArg.pt?]
  | cons h _ ih =>
    cases i with
    | zero => simpa using h.pt
    | succ i => simpa using ih i

theorem or_twice {α : Type} (a b : Option α) : a.or (b.or a) = a.or b := by cases a <;> cases b <;> rfl

theorem or_flip {α : Type} (a b c : Option α) : a.or (b.or c) = (a.or b).or c := by cases a <;> rfl

/-- C168: up to five positional arguments mean the same as the names `start`, `end`, `center`, `prx`, `pry`, with any other arguments by
name. The number of names matters for the complex form, which is told by six names with `rotation` among them. -/
theorem C168_names_partial {args : List PosArg} {pts : List (Option (Pt ℝ))} (hp : List.Forall₂ StandsFor args pts)
    (h : args.length ≤ 5) (k : CtorArgs) (hk : k.rotation = none ∨ (k.count ≠ 6 ∧ (byName pts k).count ≠ 6)) :
    ctorPos args k = (ctor (byName pts k)).map RawArc.attrs := by
  have h1 : ¬ (k.count = 6 ∧ k.rotation.isSome = true) := by
    rcases hk with h | h
    · simp [h]
    · exact fun x => h.1 x.1
  have h2 : ¬ ((byName pts k).count = 6 ∧ (byName pts k).rotation.isSome = true) := by
    rcases hk with h | h
    · rw [show (byName pts k).rotation = k.rotation from rfl]
      simp [h]
    · exact fun x => h.2 x.1
  unfold ctorPos ctor
  rw [if_neg (by omega), if_neg h1, if_neg (by omega), if_neg h2]
  simp only [if_neg (show ¬ 5 < args.length by omega)]
  have hbox : boxParams (byName pts k) = boxParams k := rfl
  rw [hbox]
  simp only [or_twice, or_flip, posAt_pt hp]
  have hc : ∀ c, centerFor { k with start := k.start.or (pts.getD 0 none), stop := k.stop.or (pts.getD 1 none) } c =
      centerFor (byName pts k) c := by
    intro c
    cases c <;> rfl
  rw [hc, show (byName pts k).center = k.center.or (pts.getD 2 none) from rfl]
  cases centerFor (byName pts k) ((k.center.or (pts.getD 2 none)).or ((boxParams k).map (·.1))) with
  | error e => rfl
  | ok v => rfl

/-- arguments as the theorem asks for: start and centre by position, the end as a complex number, the direction by name -/
example : ∃ (args : List PosArg) (pts : List (Option (Pt ℝ))) (k : CtorArgs), List.Forall₂ StandsFor args pts ∧ args.length ≤ 5 ∧
    k.rotation = none ∧ k.ccw = some true ∧
    byName pts k = { start := some ⟨1, 0⟩, stop := some ⟨0, 1⟩, center := some ⟨0, 0⟩, ccw := some true } :=
  ⟨[.point ⟨1, 0⟩, .complex 0 1, .point ⟨0, 0⟩], [some ⟨1, 0⟩, some ⟨0, 1⟩, some ⟨0, 0⟩], { ccw := some true },
    .cons (.point _) (.cons (.complex _ _) (.cons (.point _) .nil)), by simp, rfl, rfl, rfl⟩

/-- C168: six positional arguments, the second one not a complex number, are the attributes of the arc: start, end, centre, the ends of
the two axes, and sweep. -/
theorem C168_native_partial {a0 a1 a2 a3 a4 : PosArg} {p q c prx pry : Pt ℝ} (w : ℝ) (h0 : StandsFor a0 (some p)) (h1 : StandsFor a1 (some q))
    (h2 : StandsFor a2 (some c)) (h3 : StandsFor a3 (some prx)) (h4 : StandsFor a4 (some pry)) (hc : ∀ x y, a1 ≠ .complex x y) :
    ctorPos [a0, a1, a2, a3, a4, .number w] {} = .ok ⟨some p, some q, some c, some prx, some pry, some w⟩ := by
  have hc' : a1.isComplex = false := by
    cases a1 with
    | complex x y => exact absurd rfl (hc x y)
    | _ => rfl
  unfold ctorPos
  rw [if_neg (by simp [posAt, hc']), if_neg (by simp), if_neg (by simp)]
  simp [posAt, h0.pt, h1.pt, h2.pt, h3.pt, h4.pt, PosArg.num?]

/-- C168: with SVG parameters, seven arguments or six with the radii as one complex number, the arc is drawn as SVG says. -/
theorem C168_svg {a0 a6 f g : PosArg} {p q : Pt ℝ} {r s : ℝ} (rot : ℝ) {large sweep : Bool} (h0 : StandsFor a0 (some p))
    (h6 : StandsFor a6 (some q)) (hf : FlagIs f large) (hg : FlagIs g sweep) (hpq : p.eq q = false) (hr : 0 < r) (hs : 0 < s) :
    ∃ a, DrawsArc p q r s (rad rot) large sweep (point true p q a) ∧
      ctorPos [a0, .number r, .number s, .number rot, f, g, a6] {} =
        .ok ⟨some p, some q, some a.center, some a.prx, some a.pry, some a.sweep⟩ ∧
      ctorPos [a0, .complex r s, .number rot, f, g, a6] {} =
        .ok ⟨some p, some q, some a.center, some a.prx, some a.pry, some a.sweep⟩ := by
  have e : svgPos a0 (.number r) (.number s) (.number rot) f g a6 =
      .ok ⟨some p, some q, some (svgParameterize p r s rot large sweep q).center, some (svgParameterize p r s rot large sweep q).prx,
        some (svgParameterize p r s rot large sweep q).pry, some (svgParameterize p r s rot large sweep q).sweep⟩ := by
    have hn : svgCtor p (some r) (some s) (some rot) (some large) (some sweep) q = .ok (svgParameterize p r s rot large sweep q) := by
      unfold svgCtor
      rw [if_neg (by simp [hpq, hr.ne', hs.ne'])]
      rfl
    unfold svgPos
    rw [h0.pt, h6.pt, hf.truth, hg.truth]
    change (do
      let a ← svgCtor p (some r) (some s) (some rot) (some large) (some sweep) q
      Except.ok _ : Except PyErr ArcAttrs) = _
    rw [hn]
    rfl
  refine ⟨_, C78_arc rot large sweep hpq hr hs, ?_, ?_⟩
  · unfold ctorPos
    rw [if_neg (by simp), if_neg (by simp), if_pos (by simp)]
    exact e
  · unfold ctorPos
    rw [if_pos (by simp [posAt, PosArg.isComplex])]
    exact e

/-- arguments as the theorems ask for -/
example : StandsFor (.complex 1 0) (some ⟨1, 0⟩) ∧ StandsFor (.point ⟨0, 1⟩) (some ⟨0, 1⟩) ∧ FlagIs (.number 1) true ∧ FlagIs .none false ∧
    (⟨1, 0⟩ : Pt ℝ).eq ⟨0, 1⟩ = false ∧ ∀ x y, PosArg.point ⟨0, 1⟩ ≠ .complex x y :=
  ⟨.complex _ _, .point _, .set one_ne_zero, .none, by norm_num [Pt.eq, err], by simp⟩

/-- C168 fails for complex numbers in place of points: with a complex second argument, six arguments are always taken for SVG parameters. A
quarter of a circle is then a single point, or a TypeError. -/
theorem C168_complex_wrong :
    ctorPos [.complex 1 0, .complex 0 1, .complex 0 0, .complex 1 0, .complex 0 1, .number (π / 2)] {} = .ok ⟨some ⟨1, 0⟩, some ⟨π / 2, 0⟩,
      some ⟨1, 0⟩, some ⟨1, 0⟩, some ⟨1, 0⟩, some 0⟩ ∧
    ctorPos [.complex 0 0, .complex (-1) 1, .complex (-1) 0, .complex 0 0, .complex (-1) 1, .number (π / 2)] {} = .error .typeError := by
  constructor
  · unfold ctorPos
    rw [if_pos (by simp [posAt, PosArg.isComplex])]
    simp only [posAt, List.getD_cons_zero, List.getD_cons_succ]
    unfold svgPos svgCtor
    simp only [PosArg.pt?, PosArg.num?]
    rw [if_pos (by simp)]
    rfl
  · have hpi := two_le_pi
    have hne : (⟨0, 0⟩ : Pt ℝ).eq ⟨π / 2, 0⟩ = false := by
      have : |0 - π / 2| = π / 2 := by rw [abs_of_neg (by linarith)]; ring
      simp only [Pt.eq, err, this]
      norm_num
      linarith
    unfold ctorPos
    rw [if_pos (by simp [posAt, PosArg.isComplex])]
    simp only [posAt, List.getD_cons_zero, List.getD_cons_succ]
    have hn : ∀ l g, svgCtor ⟨0, 0⟩ (some (-1)) (some 1) none l g ⟨π / 2, 0⟩ = .error .typeError := by
      intro l g
      unfold svgCtor
      rw [if_neg (by simp [hne])]
    change (do
      let a ← svgCtor ⟨0, 0⟩ (some (-1)) (some 1) none _ _ ⟨π / 2, 0⟩
      Except.ok _ : Except PyErr ArcAttrs) = _
    rw [hn]
    rfl

/-- C168 fails for six names with `rotation` among them: start and end by position and the rest by name give an arc, but everything by name
is a TypeError. -/
theorem C168_rotation_wrong (p q c : Pt ℝ) (r s φ : ℝ) :
    (∃ x, ctorPos [.point p, .point q] { center := some c, rx := some r, ry := some s, rotation := some φ } = .ok x ∧ x.start = some p ∧
      x.stop = some q ∧ x.center = some c ∧ x.sweep ≠ none) ∧
    ctor (byName [some p, some q] { center := some c, rx := some r, ry := some s, rotation := some φ }) = .error .typeError := by
  constructor
  · unfold ctorPos
    rw [if_neg (by simp), if_neg (by simp [CtorArgs.count]), if_neg (by simp)]
    exact ⟨_, rfl, rfl, rfl, rfl, by simp [RawArc.attrs, finish, circleParams, prxOf, pryOf, posAt, PosArg.pt?, boxParams]⟩
  · exact C93_six_wrong c r s φ p q

/-- C168 fails for a None among six positional arguments: the end is not found from the sweep, as it is when the arguments have names. -/
theorem C168_none_wrong {p c : Pt ℝ} (prx pry : Pt ℝ) (w : ℝ) :
    (∃ x, ctorPos [.point p, .none, .point c, .point prx, .point pry, .number w] {} = .ok x ∧ x.stop = none) ∧
    ∃ x, ctor { start := some p, center := some c, prx := some prx, pry := some pry, sweep := some w } = .ok x ∧ x.stop ≠ none := by
  constructor
  · unfold ctorPos
    rw [if_neg (by simp [posAt, PosArg.isComplex]), if_neg (by simp), if_neg (by simp)]
    simp [posAt, PosArg.pt?]
  · unfold ctor
    rw [if_neg (by simp)]
    exact ⟨_, rfl, by simp [finish, circleParams, prxOf, pryOf, boxParams]⟩

end Svgio.Arc
