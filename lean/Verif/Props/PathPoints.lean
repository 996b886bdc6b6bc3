import Verif.Spec.PathPoints
import Verif.Model.SubpathEdit
import Verif.Props.PathText

/-!
C115: the points of a path read from a text.
-/

namespace Svgio.Props

open Svgio Spec Lexer

variable {K : Type} [Field K] [LinearOrder K] [IsStrictOrderedRing K]
variable {rd : List Char → K} {mk : Path.ArcCtor K} {arcOf : ArcOf K}

theorem agree_step (m : Bool) {path : List (Seg K)} {pen : Pen K} (ha : Agree path pen) (c : Cmd K) :
    Agree (path ++ [(step arcOf m pen c).1]) (step arcOf m pen c).2 := by
  cases c with
  | move rel p => exact Path.At.snoc_move rfl rfl
  | line | horiz | vert | arc | close => exact Path.At.snoc ha rfl rfl rfl
  | quad | smoothQuad | cubic | smoothCubic =>
    refine Path.At.snoc ha rfl rfl ?_
    simp [Path.smoothPoint, step, smooth_after, reflected]

/-- the drawing state after the commands, smooth commands being read as the library does if `m` -/
def penThrough (arcOf : ArcOf K) (m : Bool) (pen : Pen K) : List (Cmd K) → Pen K
  | [] => pen
  | c :: cs => penThrough arcOf m (step arcOf m pen c).2 cs

theorem agree_draw (m : Bool) : ∀ (cs : List (Cmd K)) {path : List (Seg K)} {pen : Pen K}, Agree path pen →
    Agree (path ++ draw arcOf m pen cs) (penThrough arcOf m pen cs)
  | [], path, pen, ha => by simpa [draw, penThrough] using ha
  | c :: cs, path, pen, ha => by
    have := agree_draw m cs (agree_step (arcOf := arcOf) m ha c)
    simpa [draw, penThrough] using this

theorem through_eq (pen : Pen K) : ∀ cs, penThrough arcOf false pen cs = pen.through cs := by
  intro cs
  induction cs generalizing pen with
  | nil => rfl
  | cons c cs ih =>
    have : (step arcOf false pen c).2 = (step (fun p _ _ _ _ _ _ => ⟨p, p, p, 0⟩) false pen c).2 := by cases c <;> rfl
    simp only [penThrough, Pen.through, ih, this]

theorem through_same (cs : List (Cmd K)) : ∀ (p q : Pen K), p.cur = q.cur → p.start = q.start →
    (penThrough arcOf true p cs).cur = (penThrough arcOf false q cs).cur ∧
    (penThrough arcOf true p cs).start = (penThrough arcOf false q cs).start := by
  induction cs with
  | nil => exact fun p q h1 h2 => ⟨h1, h2⟩
  | cons c cs ih =>
    intro p q h1 h2
    have stop : ∀ rel (e : End K), p.stop rel e = q.stop rel e := by
      intro rel e; cases e <;> simp [Pen.stop, Pen.pt, h1, h2]
    apply ih
    · cases c <;> simp [step, stop, Pen.pt, h1, h2]
    · cases c <;> simp [step, stop, Pen.pt, h1, h2]

theorem meaning_agree_first (rel : Bool) (p : Pt K) :
    Agree [⟨.move, none, some p, rel, true⟩] (⟨p, p, none⟩ : Pen K) :=
  Path.At.snoc_move (p := []) rfl rfl

/-- **C115**: after a text that writes path data is read into an empty path, `first_point` is the target of the first moveto,
`current_point` the current point, and `z_point` the start of the current subpath, where a closepath would go. -/
theorem C115_points (hmk : ArcsBy mk arcOf) {cs : List (Cmd K)} {rel : Bool} {p : Pt K} {s : List Char}
    (hwf : WellFormed (.move rel p :: cs)) (hw : Writes rd (.move rel p :: cs) s) :
    ∃ path, parse rd mk [] s = (⟨path, ⟨[], none⟩⟩, none) ∧ Path.firstPoint path = some p ∧
      Path.currentPoint path = some ((⟨p, p, none⟩ : Pen K).through cs).cur ∧
      Path.zPoint path = some ((⟨p, p, none⟩ : Pen K).through cs).start := by
  have ha := agree_draw (arcOf := arcOf) true cs (meaning_agree_first rel p)
  obtain ⟨h1, h2⟩ := through_same (arcOf := arcOf) cs ⟨p, p, none⟩ ⟨p, p, none⟩ rfl rfl
  rw [through_eq] at h1 h2
  refine ⟨_, C38_text_meaning hmk hwf hw, rfl, ?_, ?_⟩
  · rw [← h1]; exact ha.cur
  · rw [← h2]; exact ha.z

/-- **C115**: `smooth_point` is the reflection of the last control point after a Bezier curve, and the current point otherwise.
Partial: no smooth command after a curve of the other sort (C40). -/
theorem C115_smooth_partial (hmk : ArcsBy mk arcOf) {cs : List (Cmd K)} {rel : Bool} {p : Pt K} {s : List Char}
    (hwf : WellFormed (.move rel p :: cs)) (hmix : NoMixedSmooth (.move rel p :: cs)) (hw : Writes rd (.move rel p :: cs) s) :
    ∃ path, parse rd mk [] s = (⟨path, ⟨[], none⟩⟩, none) ∧
      Path.smoothPoint path = .ok (some ((⟨p, p, none⟩ : Pen K).through cs).reflection) := by
  have ha := agree_draw (arcOf := arcOf) false cs (meaning_agree_first rel p)
  refine ⟨_, C38_svg_partial hmk hwf hmix hw, ?_⟩
  rw [through_eq] at ha
  refine ha.smooth.trans ?_
  unfold Pen.smooth Pen.reflection
  split <;> simp_all

/-- the example of C38: "M1,1 2-2h3L z" ends where it began -/
example : ∃ path, parse floatVal dummyArc [] "M1,1 2-2h3L z".toList = (⟨path, ⟨[], none⟩⟩, none) ∧ Path.firstPoint path = some ⟨1, 1⟩ ∧
    Path.currentPoint path = some ⟨1, 1⟩ ∧ Path.zPoint path = some ⟨1, 1⟩ :=
  C115_points (arcOf := fun a _ _ _ _ _ _ => ⟨a, a, a, 0⟩) (fun _ _ _ _ _ _ _ => rfl) exWellFormed exWrites

example : NoMixedSmooth exCmds := by simp [NoMixedSmooth, exCmds]

end Svgio.Props
