import Verif.Spec.Picture
import Verif.Model.Picture
import Verif.Props.PathText
import Verif.Props.SegGeom
import Verif.Props.Arc

/-!
C112: from path data to the picture.
-/

namespace Svgio.Props

open Svgio Spec Lexer

/-- the arcs have positive radii, and end points that are the same or do not compare equal -/
def ArcsPlain : Pen ℝ → List (Cmd ℝ) → Prop
  | _, [] => True
  | pen, c :: cs => (match c with
      | .arc rel rx ry _ _ _ e => pen.cur = pen.stop rel e ∨ (pen.cur.eq (pen.stop rel e) = false ∧ 0 < rx ∧ 0 < ry)
      | _ => True) ∧ ArcsPlain (pen.after c) cs

/-- The constructor used by the path reader makes the arcs of `svgParameterize`. -/
theorem svgCtor_arcs : ArcsBy Arc.svgCtor Arc.svgParameterize := by
  intro a rx ry rot l s b
  unfold Arc.svgCtor
  by_cases h : a.eq b ∨ some rx = some (0 : ℝ) ∨ some ry = some (0 : ℝ)
  · rw [if_pos h]
    have h' : a.eq b ∨ rx = 0 ∨ ry = 0 := by simpa using h
    unfold Arc.svgParameterize
    rw [if_pos h']
  · rw [if_neg h]; rfl

/-- the number written -/
noncomputable def realVal (t : List Char) : ℝ := (floatVal t : ℝ)

theorem after_step (arcOf : ArcOf ℝ) (pen : Pen ℝ) (c : Cmd ℝ) : (step arcOf false pen c).2 = pen.after c := by
  cases c <;> rfl

/-- `f` gives the points of the segment -/
def Gives (numpy : Bool) (ang : ArcData ℝ → Bool) (s : Seg ℝ) (f : ℝ → Pt ℝ) : Prop :=
  ∀ u, 0 ≤ u → u ≤ 1 → s.anyPoint numpy ang u = .ok (f u)

theorem eq_refl_pt (p : Pt ℝ) : p.eq p = true := by
  have : (0 : ℝ) ≤ err := by unfold err; positivity
  simp [Pt.eq, this]

theorem gives_step (numpy : Bool) (ang : ArcData ℝ → Bool) (hang : ∀ a, a.sweep ≠ 0 → ang a = true) (pen : Pen ℝ) (c : Cmd ℝ)
    (cs : List (Cmd ℝ)) (h : ArcsPlain pen (c :: cs)) :
    ∃ f, Gives numpy ang (step Arc.svgParameterize false pen c).1 f ∧ DrawsCmd pen f c := by
  have line := fun (p q : Pt ℝ) r sm (k : Kind ℝ) (hk : k ∈ [Kind.line, Kind.close]) => fun u h0 h1 =>
    (C57_curves p p p q numpy r sm u).2.2 h0 h1 k hk
  cases c with
  | move rel p => exact ⟨fun _ => pen.pt rel p, fun u _ _ => rfl, fun u _ _ => rfl⟩
  | line rel e => exact ⟨_, line _ _ rel true .line (by simp), fun u _ _ => rfl⟩
  | horiz rel x => exact ⟨_, line _ _ rel true .line (by simp), fun u _ _ => rfl⟩
  | vert rel y => exact ⟨_, line _ _ rel true .line (by simp), fun u _ _ => rfl⟩
  | quad rel c e => exact ⟨_, fun u _ _ => (C57_curves _ _ _ pen.cur numpy rel false u).1, fun u _ _ => rfl⟩
  | smoothQuad rel e => exact ⟨_, fun u _ _ => (C57_curves _ _ _ pen.cur numpy rel true u).1, fun u _ _ => rfl⟩
  | cubic rel c d e => exact ⟨_, fun u _ _ => (C57_curves _ _ _ _ numpy rel false u).2.1, fun u _ _ => rfl⟩
  | smoothCubic rel d e => exact ⟨_, fun u _ _ => (C57_curves _ _ _ _ numpy rel true u).2.1, fun u _ _ => rfl⟩
  | close rel => exact ⟨_, line _ _ rel true .close (by simp), fun u _ _ => rfl⟩
  | arc rel rx ry rot large sweep e =>
    refine ⟨Arc.point (ang (Arc.svgParameterize pen.cur rx ry rot large sweep (pen.stop rel e))) pen.cur (pen.stop rel e)
      (Arc.svgParameterize pen.cur rx ry rot large sweep (pen.stop rel e)), fun u _ _ => rfl, ?_⟩
    simp only [DrawsCmd]
    rcases h.1 with h | ⟨h, hx, hy⟩
    · rw [if_pos h, ← h]
      intro u _ _
      have e1 : Arc.svgParameterize pen.cur rx ry rot large sweep pen.cur = ⟨pen.cur, pen.cur, pen.cur, 0⟩ := by
        unfold Arc.svgParameterize
        rw [if_pos (Or.inl (eq_refl_pt _))]
      rw [e1]
      have z : ∀ b, Arc.sweepIsZero b 0 = true := by
        intro b; cases b <;> simp [Arc.sweepIsZero, Angle.eq]
      unfold Arc.point
      rw [if_pos (by simp [z, eq_refl_pt])]
    · have hne : pen.cur ≠ pen.stop rel e := fun hh => by rw [← hh, eq_refl_pt] at h; exact absurd h (by simp)
      rw [if_neg hne, if_neg (by simp [hx.ne', hy.ne']), abs_of_pos hx, abs_of_pos hy]
      have hd := Arc.C78_arc rot large sweep h hx hy
      by_cases hw : (Arc.svgParameterize pen.cur rx ry rot large sweep (pen.stop rel e)).sweep = 0
      · have : ∀ b, Arc.point b pen.cur (pen.stop rel e) (Arc.svgParameterize pen.cur rx ry rot large sweep (pen.stop rel e)) =
            Arc.point true pen.cur (pen.stop rel e) (Arc.svgParameterize pen.cur rx ry rot large sweep (pen.stop rel e)) := by
          intro b; funext u; simp only [Arc.point, h, Bool.false_and]
        rw [this]
        exact hd
      · rw [hang _ hw]
        exact hd

theorem gives_draw (numpy : Bool) (ang : ArcData ℝ → Bool) (hang : ∀ a, a.sweep ≠ 0 → ang a = true) (cs : List (Cmd ℝ)) :
    ∀ pen, ArcsPlain pen cs → ∃ fs, List.Forall₂ (Gives numpy ang) (draw Arc.svgParameterize false pen cs) fs ∧ DrawsFrom pen cs fs := by
  induction cs with
  | nil => exact fun _ _ => ⟨[], .nil, rfl⟩
  | cons c cs ih =>
    intro pen h
    obtain ⟨f, h1, h2⟩ := gives_step numpy ang hang pen c cs h
    obtain ⟨fs, h3, h4⟩ := ih (pen.after c) h.2
    refine ⟨f :: fs, ?_, h2, h4⟩
    unfold draw
    rw [after_step]
    exact .cons h1 h3

/-- **C112**: reading a text that writes path data gives segments whose points are the picture that SVG says. `ang` says which
arcs have an `Angle` as sweep: those built by the reader with a sweep other than 0.
Partial: no smooth command after a curve of the other sort (C40); arcs have positive radii, and end points that are the same or do not
compare equal. -/
theorem C112_picture_partial (numpy : Bool) (ang : ArcData ℝ → Bool) (hang : ∀ a, a.sweep ≠ 0 → ang a = true) {cs : List (Cmd ℝ)}
    {rel : Bool} {p : Pt ℝ} {s : List Char} (hwf : WellFormed (.move rel p :: cs)) (hmix : NoMixedSmooth (.move rel p :: cs))
    (hw : Writes realVal (.move rel p :: cs) s) (ha : ArcsPlain ⟨p, p, none⟩ cs) :
    ∃ path fs, parse realVal Arc.svgCtor [] s = (⟨path, ⟨[], none⟩⟩, none) ∧ List.Forall₂ (Gives numpy ang) path fs ∧
      Picture (.move rel p :: cs) fs := by
  obtain ⟨fs, h1, h2⟩ := gives_draw numpy ang hang cs ⟨p, p, none⟩ ha
  exact ⟨_, (fun _ => p) :: fs, C38_svg_partial svgCtor_arcs hwf hmix hw, .cons (fun u _ _ => rfl) h1, fun u _ _ => rfl, h2⟩

/-- a text with an arc that meets the hypotheses -/
noncomputable def exArcCmds : List (Cmd ℝ) := [.arc false 2 2 1 false true (.pt ⟨2, 1⟩), .close true]

example : Writes realVal (.move false ⟨1, 1⟩ :: exArcCmds) "M1,1A2 2 1 01 2,1z".toList ∧
    WellFormed (.move false ⟨1, 1⟩ :: exArcCmds) ∧ NoMixedSmooth (.move false ⟨1, 1⟩ :: exArcCmds) ∧
    ArcsPlain ⟨⟨1, 1⟩, ⟨1, 1⟩, none⟩ exArcCmds := by
  have n1 : IsNumber ['1'] := (matchFloat_sound (s := ['1']) (r := []) (by decide)).2
  have n2 : IsNumber ['2'] := (matchFloat_sound (s := ['2']) (r := []) (by decide)).2
  have v1 : realVal ['1'] = 1 := by rw [realVal, show floatVal ['1'] = 1 by decide +kernel]; norm_num
  have v2 : realVal ['2'] = 2 := by rw [realVal, show floatVal ['2'] = 2 by decide +kernel]; norm_num
  have sp : AllSep [' '] := by simp [AllSep, IsSep]
  have sc : AllSep [','] := by simp [AllSep, IsSep]
  have s0 : AllSep [] := by simp [AllSep]
  refine ⟨?_, ?_, ?_, ?_⟩
  · refine CmdText.letter _ [] (.move false ⟨1, 1⟩) _ "1,1A2 2 1 01 2,1z".toList "A2 2 1 01 2,1z".toList s0 ?_ ?_
    · rw [Cmd.args, ptArgs, ← v1]
      exact ArgText.num [] ['1'] _ _ _ s0 n1 (matchFloat_maximal (s := "1,1A2 2 1 01 2,1z".toList) (by decide))
        (ArgText.num [','] ['1'] _ _ _ sc n1 (matchFloat_maximal (s := "1A2 2 1 01 2,1z".toList) (by decide)) (ArgText.nil _))
    refine CmdText.letter _ [] (.arc false 2 2 1 false true (.pt ⟨2, 1⟩)) _ "2 2 1 01 2,1z".toList "z".toList s0 ?_
      (CmdText.letter _ [] (.close true) _ [] [] s0 (ArgText.nil _) (CmdText.nil _ _ s0))
    rw [Cmd.args, End.args, ptArgs, ← v1, ← v2]
    exact ArgText.num [] ['2'] _ _ _ s0 n2 (matchFloat_maximal (s := "2 2 1 01 2,1z".toList) (by decide))
      (ArgText.num [' '] ['2'] _ _ _ sp n2 (matchFloat_maximal (s := "2 1 01 2,1z".toList) (by decide))
      (ArgText.num [' '] ['1'] _ _ _ sp n1 (matchFloat_maximal (s := "1 01 2,1z".toList) (by decide))
      (ArgText.flag [' '] false _ _ _ sp (ArgText.flag [] true _ _ _ s0
      (ArgText.num [' '] ['2'] _ _ _ sp n2 (matchFloat_maximal (s := "2,1z".toList) (by decide))
      (ArgText.num [','] ['1'] _ _ _ sc n1 (matchFloat_maximal (s := "1z".toList) (by decide)) (ArgText.nil _)))))))
  · simp [WellFormed, exArcCmds, Completed, Cmd.endsInClose, Cmd.isClose]
  · simp [NoMixedSmooth, exArcCmds]
  · refine ⟨Or.inr ⟨?_, by norm_num, by norm_num⟩, trivial, trivial⟩
    norm_num [Pen.stop, Pen.pt, Pt.eq, err]

example : ∃ ang : ArcData ℝ → Bool, ∀ a, a.sweep ≠ 0 → ang a = true := ⟨fun _ => true, fun _ _ => rfl⟩

/-- C112 is false of arcs with a radius 0, which SVG draws as a straight line: half way from (0,0) to (2,0) such an arc is
still at (0,0). -/
theorem C112_radius_wrong : ∃ a, Arc.svgCtor ⟨0, 0⟩ (some 0) (some 1) (some 0) (some false) (some true) ⟨2, 0⟩ = .ok a ∧
    (∀ numpy ang r sm, Seg.anyPoint numpy ang ⟨.arc a, some ⟨0, 0⟩, some ⟨2, 0⟩, r, sm⟩ (1 / 2) = .ok ⟨0, 0⟩) ∧
    ∀ f, DrawsCmd ⟨⟨0, 0⟩, ⟨0, 0⟩, none⟩ f (.arc false 0 1 0 false true (.pt ⟨2, 0⟩)) → f (1 / 2) = ⟨1, 0⟩ := by
  refine ⟨⟨⟨0, 0⟩, ⟨0, 0⟩, ⟨0, 0⟩, 0⟩, ?_, ?_, ?_⟩
  · unfold Arc.svgCtor
    rw [if_pos (by simp)]
  · intro numpy ang r sm
    have h : (⟨0, 0⟩ : Pt ℝ).eq ⟨2, 0⟩ = false := by norm_num [Pt.eq, err]
    simp only [Seg.anyPoint, Arc.point, h]
    norm_num [Arc.pointAtT, Arc.rx, Arc.ry, Pt.distance]
  · intro f hf
    simp only [DrawsCmd] at hf
    rw [if_neg (by simp [Pen.stop, Pen.pt]), if_pos (by simp)] at hf
    rw [hf _ (by norm_num) (by norm_num)]
    norm_num [between, Pen.stop, Pen.pt]

end Svgio.Props
