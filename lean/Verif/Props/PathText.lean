import Verif.Lemmas.PathMain

/-!
C38, C39, C42: path data text means its commands.
-/

namespace Svgio.Props
open Spec Lexer

variable {K : Type} [Field K] [LinearOrder K] [IsStrictOrderedRing K]
variable {rd : List Char → K} {mk : Path.ArcCtor K} {arcOf : ArcOf K}

/-- `mk` constructs the arcs `arcOf` when all parameters are given. -/
def ArcsBy (mk : Path.ArcCtor K) (arcOf : ArcOf K) : Prop :=
  ∀ a rx ry rot l s b, mk a (some rx) (some ry) (some rot) (some l) (some s) b = .ok (arcOf a rx ry rot l s b)

/-- **C38** with the library's reading of smooth commands (any preceding curve is reflected): for every
well-formed command list and every text that writes it, parsing succeeds, consumes the whole text, and
gives exactly the segments drawn. -/
theorem C38_text_meaning (hmk : ArcsBy mk arcOf) {cs : List (Cmd K)} {s : List Char}
    (hwf : WellFormed cs) (hw : Writes rd cs s) :
    parse rd mk [] s = (⟨meaning arcOf true cs, ⟨[], none⟩⟩, none) := by
  obtain ⟨⟨rel, p, cs', rfl⟩, hcomp⟩ := hwf
  unfold Writes at hw
  cases hw with
  | implied _ _ _ _ _ h => simp at h
  | letter _ w _ _ u r hws hargs hrest =>
    have f := letter_facts (Cmd.move rel p)
    have hsk : skip (w ++ (Cmd.move rel p).letter :: u) = (Cmd.move rel p).letter :: u := by
      rw [skip_sep hws, skip_cons f.2.1]
    have hm := ArgText.more (inl := none) hargs
    have hsk2 := ArgText.skip hargs
    obtain ⟨v, h1, h2⟩ := ArgText.coord (as := []) (inl := none) (by rw [List.append_nil]; exact hsk2)
    cases h2
    -- the first moveto
    have hb : body rd mk (Cmd.move rel p).letter ⟨[], ⟨skip u, none⟩⟩ =
        (⟨[⟨.move, none, some p, rel, true⟩], ⟨r, none⟩⟩, none) := by
      cases rel <;>
      simp [body, Cmd.letter, argSpec, readArgs, readArg, rcoord, h1, Path.currentPoint, Except.map,
        finish, Path.move, Path.append, Path.validateConnection, Path.Target.get, Seg.isClose]
    have he : exec rd mk (Cmd.move rel p).letter ⟨[], ⟨u, none⟩⟩ =
        whileMore rd mk (if rel then 'l' else 'L') (r.length + 1)
          ⟨[⟨.move, none, some p, rel, true⟩], ⟨r, none⟩⟩ := by
      unfold exec
      rw [if_neg (by rw [f.2.2.2]; simp [Cmd.isClose]), if_pos (by cases rel <;> simp [Cmd.letter])]
      simp only [hm, if_true, hb, Res.andThen, fuelOf]
      cases rel <;> simp [Cmd.letter]
    have hc : command ⟨w ++ (Cmd.move rel p).letter :: u, none⟩ = (some (Cmd.move rel p).letter, ⟨u, none⟩) := by
      unfold command
      simp only [hsk, f.1, if_true]
    have hag : Agree [(⟨.move, none, some p, rel, true⟩ : Seg K)] ⟨p, p, none⟩ :=
      Path.At.snoc_move (p := []) rfl rfl
    have hlen := (argText_length hargs).1
    have hlen2 := skip_length r
    have hrun := run_text hmk hrest (implied_not_move _) (n := r.length + 1)
      (m := (w ++ (Cmd.move rel p).letter :: u).length) hag hcomp.2 (Ready.refl r)
      (by omega) (by simp; omega)
    simp only [Cmd.implied] at hrun
    unfold parse fuelOf
    simp only [mainLoop, hc, he]
    rw [hrun]
    simp [meaning]

theorem step_ctrl {m : Bool} {pen : Pen K} {c : Cmd K} {k : Curve} {q : Pt K}
    (h : (step arcOf m pen c).2.ctrl = some (k, q)) :
    (k = .quad ∧ ((∃ r c' e, c = .quad r c' e) ∨ ∃ r e, c = .smoothQuad r e)) ∨
    (k = .cubic ∧ ((∃ r c1 c2 e, c = .cubic r c1 c2 e) ∨ ∃ r c2 e, c = .smoothCubic r c2 e)) := by
  cases c <;> simp [step] at h <;> simp [h.1]

/-- smooth commands that never follow the other sort of curve mean the same either way -/
theorem draw_mixed {cs : List (Cmd K)} (h : NoMixedSmooth cs) : ∀ pen : Pen K,
    (∀ c k, cs.head? = some c → (∃ q, pen.ctrl = some (k, q)) →
      (match k, c with
        | .cubic, .smoothQuad .. => False
        | .quad, .smoothCubic .. => False
        | _, _ => True)) →
    draw arcOf true pen cs = draw arcOf false pen cs := by
  induction cs with
  | nil => intros; rfl
  | cons c cs ih =>
    intro pen hpen
    have hs : step arcOf true pen c = step arcOf false pen c := by
      have sm : ∀ k : Curve, (∀ k' q, pen.ctrl = some (k', q) → k' = k) →
          pen.smooth true k = pen.smooth false k := by
        intro k hk
        unfold Pen.smooth
        split
        · rfl
        · rename_i k' q hq
          simp [hk _ _ hq]
      cases c with
      | smoothQuad rel e =>
        have := sm .quad (by
          intro k' q hq
          have := hpen _ k' rfl ⟨q, hq⟩
          cases k' <;> simp_all)
        simp only [step, this]
      | smoothCubic rel c2 e =>
        have := sm .cubic (by
          intro k' q hq
          have := hpen _ k' rfl ⟨q, hq⟩
          cases k' <;> simp_all)
        simp only [step, this]
      | _ => rfl
    unfold draw
    rw [hs]
    congr 1
    apply ih h.2
    intro d k hd hk
    obtain ⟨q, hq⟩ := hk
    cases cs with
    | nil => simp at hd
    | cons d' ds =>
      simp only [List.head?_cons, Option.some.injEq] at hd
      subst hd
      have h1 := h.1
      rcases step_ctrl hq with ⟨rfl, ⟨_, _, _, rfl⟩ | ⟨_, _, rfl⟩⟩ | ⟨rfl, ⟨_, _, _, _, rfl⟩ | ⟨_, _, _, rfl⟩⟩ <;>
        cases d' <;> first | trivial | exact h1

/-- **C38**: for every list of SVG path commands (starting with a moveto, segment-completing closes
followed by their closepath) and every text that writes it - any spelling of the numbers, any
separators, letters left out where the grammar allows - parsing gives exactly the segments that the SVG
semantics prescribes.
Partial: command lists in which a smooth command directly follows a curve of the other sort are
excluded; the code departs from SVG there, see `C40_mixed_wrong`. -/
theorem C38_svg_partial (hmk : ArcsBy mk arcOf) {cs : List (Cmd K)} {s : List Char}
    (hwf : WellFormed cs) (hmix : NoMixedSmooth cs) (hw : Writes rd cs s) :
    parse rd mk [] s = (⟨meaning arcOf false cs, ⟨[], none⟩⟩, none) := by
  rw [C38_text_meaning hmk hwf hw]
  obtain ⟨⟨rel, p, cs', rfl⟩, -⟩ := hwf
  simp only [meaning]
  rw [draw_mixed hmix.2]
  rintro c k - ⟨q, hq⟩
  simp at hq

/-! ### C39 -/

/-- the relative form of a command issued in the state `pen` -/
def relPt (pen : Pen K) (rel : Bool) (p : Pt K) : Pt K :=
  if rel then p else ⟨p.x - pen.cur.x, p.y - pen.cur.y⟩

def relEnd (pen : Pen K) (rel : Bool) : End K → End K
  | .pt p => .pt (relPt pen rel p)
  | .close => .close

def relCmd (pen : Pen K) : Cmd K → Cmd K
  | .move rel p => .move true (relPt pen rel p)
  | .line rel e => .line true (relEnd pen rel e)
  | .horiz rel x => .horiz true (if rel then x else x - pen.cur.x)
  | .vert rel y => .vert true (if rel then y else y - pen.cur.y)
  | .quad rel c e => .quad true (relPt pen rel c) (relEnd pen rel e)
  | .smoothQuad rel e => .smoothQuad true (relEnd pen rel e)
  | .cubic rel c1 c2 e => .cubic true (relPt pen rel c1) (relPt pen rel c2) (relEnd pen rel e)
  | .smoothCubic rel c2 e => .smoothCubic true (relPt pen rel c2) (relEnd pen rel e)
  | .arc rel rx ry rot l s e => .arc true rx ry rot l s (relEnd pen rel e)
  | .close _ => .close true

/-- every command rewritten in relative form, the current point subtracted from absolute coordinates -/
def relCmds (arcOf : ArcOf K) : Pen K → List (Cmd K) → List (Cmd K)
  | _, [] => []
  | pen, c :: cs => relCmd pen c :: relCmds arcOf (step arcOf true pen c).2 cs

/-- the relative form of a path: the first moveto is absolute in either case -/
def relForm (arcOf : ArcOf K) : List (Cmd K) → List (Cmd K)
  | .move _ p :: cs => .move true p :: relCmds arcOf ⟨p, p, none⟩ cs
  | cs => cs

/-- a segment without the note whether it was written in relative form -/
def forgetRel (s : Seg K) : Seg K := { s with relative := false }

theorem pt_relPt (pen : Pen K) (rel : Bool) (p : Pt K) : pen.pt true (relPt pen rel p) = pen.pt rel p := by
  cases rel <;> simp [Pen.pt, relPt]

theorem stop_relEnd (pen : Pen K) (rel : Bool) (e : End K) : pen.stop true (relEnd pen rel e) = pen.stop rel e := by
  cases e with
  | pt p => exact pt_relPt pen rel p
  | close => rfl

theorem step_rel (pen : Pen K) (c : Cmd K) :
    forgetRel (step arcOf true pen (relCmd pen c)).1 = forgetRel (step arcOf true pen c).1 ∧
      (step arcOf true pen (relCmd pen c)).2 = (step arcOf true pen c).2 := by
  cases c with
  | horiz rel x => cases rel <;> simp [step, relCmd, forgetRel]
  | vert rel x => cases rel <;> simp [step, relCmd, forgetRel]
  | _ => simp [step, relCmd, forgetRel, pt_relPt, stop_relEnd]

theorem draw_rel (cs : List (Cmd K)) : ∀ pen : Pen K,
    (draw arcOf true pen (relCmds arcOf pen cs)).map forgetRel = (draw arcOf true pen cs).map forgetRel := by
  induction cs with
  | nil => intro; rfl
  | cons c cs ih =>
    intro pen
    have h := step_rel (arcOf := arcOf) pen c
    simp only [relCmds, draw, List.map_cons, h.1, h.2, ih]

theorem completed_rel {cs : List (Cmd K)} : ∀ pen : Pen K, Completed cs → Completed (relCmds arcOf pen cs) := by
  induction cs with
  | nil => intros; trivial
  | cons c cs ih =>
    intro pen h
    refine ⟨?_, ih _ h.2⟩
    intro he
    have hc : c.endsInClose := by
      have key : ∀ (rel : Bool) (e : End K), relEnd pen rel e = .close → e = .close := by
        intro rel e h
        cases e with
        | pt p => simp [relEnd] at h
        | close => rfl
      cases c <;> simp only [relCmd, Cmd.endsInClose] at he ⊢ <;> exact key _ _ he
    obtain ⟨d, ds, rfl, hd⟩ := h.1 hc
    refine ⟨_, _, rfl, ?_⟩
    cases d <;> simp_all [Cmd.isClose, relCmd]

/-- **C39**: the text of a command list and the text of its relative form parse without error to the
same points (everything except the note that the relative form was used). -/
theorem C39_relative_equivalent (hmk : ArcsBy mk arcOf) {cs : List (Cmd K)} {s s' : List Char}
    (hwf : WellFormed cs) (hw : Writes rd cs s) (hw' : Writes rd (relForm arcOf cs) s') :
    (parse rd mk [] s).1.path.map forgetRel = (parse rd mk [] s').1.path.map forgetRel ∧
      (parse rd mk [] s).2 = none ∧ (parse rd mk [] s').2 = none := by
  rw [C38_text_meaning hmk hwf hw]
  obtain ⟨⟨rel, p, cs', rfl⟩, hc⟩ := hwf
  have hwf' : WellFormed (relForm arcOf (.move rel p :: cs')) :=
    ⟨⟨true, p, _, rfl⟩, by simp [Cmd.endsInClose], completed_rel _ hc.2⟩
  rw [C38_text_meaning hmk hwf' hw']
  refine ⟨?_, rfl, rfl⟩
  simp only [meaning, relForm, List.map_cons, draw_rel]
  simp [forgetRel]

/-! ### C42 -/

theorem draw_append (pen : Pen K) (as bs : List (Cmd K)) :
    ∃ pen', draw arcOf true pen (as ++ bs) = draw arcOf true pen as ++ draw arcOf true pen' bs := by
  induction as generalizing pen with
  | nil => exact ⟨pen, rfl⟩
  | cons a as ih =>
    obtain ⟨pen', h⟩ := ih (step arcOf true pen a).2
    exact ⟨pen', by simp [draw, h]⟩

/-- the start of the current subpath never changes except by moves, where it is the move's target -/
theorem draw_start (as bs : List (Cmd K)) : ∀ (pen : Pen K) (pre : List (Seg K)),
    (pre.reverse.find? Seg.isMove).bind Seg.stop = some pen.start →
    ∃ pen', draw arcOf true pen (as ++ bs) = draw arcOf true pen as ++ draw arcOf true pen' bs ∧
      ((pre ++ draw arcOf true pen as).reverse.find? Seg.isMove).bind Seg.stop = some pen'.start := by
  induction as with
  | nil => intro pen pre h; exact ⟨pen, rfl, by simpa [draw] using h⟩
  | cons a as ih =>
    intro pen pre h
    have hnext : ((pre ++ [(step arcOf true pen a).1]).reverse.find? Seg.isMove).bind Seg.stop =
        some (step arcOf true pen a).2.start := by
      rw [Path.find_move_concat]
      cases a <;> simp_all [step, Seg.isMove]
    obtain ⟨pen', h1, h2⟩ := ih _ _ hnext
    refine ⟨pen', by simp [draw, h1], ?_⟩
    rw [← h2]
    simp [draw]

/-- **C42** segment-completing close: wherever in the path data a segment completed by a close and that close
are written, the path has there a segment that ends at the target `q` of the latest move, and a close
from `q` to `q`. -/
theorem C42_segment_completing_close (hmk : ArcsBy mk arcOf) {cs cs2 : List (Cmd K)} {c : Cmd K} {rel : Bool}
    {s : List Char} (hc : c.endsInClose) (hwf : WellFormed (cs ++ c :: .close rel :: cs2))
    (hw : Writes rd (cs ++ c :: .close rel :: cs2) s) :
    ∃ pre seg q post, (parse rd mk [] s).1.path = pre ++ seg :: ⟨.close, some q, some q, rel, true⟩ :: post ∧
      (parse rd mk [] s).2 = none ∧ seg.stop = some q ∧ seg.isMove = false ∧ seg.isClose = false ∧
      ∃ m, pre.reverse.find? Seg.isMove = some m ∧ m.stop = some q := by
  rw [C38_text_meaning hmk hwf hw]
  obtain ⟨⟨r0, p, cs', h0⟩, -⟩ := hwf
  cases cs with
  | nil =>
    simp only [List.nil_append, List.cons.injEq] at h0
    obtain ⟨rfl, -⟩ := h0
    exact absurd hc (by simp [Cmd.endsInClose])
  | cons c0 cs =>
    simp only [List.cons_append, List.cons.injEq] at h0
    obtain ⟨rfl, -⟩ := h0
    simp only [List.cons_append, meaning]
    obtain ⟨pen', h1, h2⟩ := draw_start (arcOf := arcOf) cs (c :: .close rel :: cs2) ⟨p, p, none⟩
      [⟨.move, none, some p, r0, true⟩] (by simp [Seg.isMove])
    rw [h1]
    have hstep : (step arcOf true pen' c).1.stop = some pen'.start ∧
        (step arcOf true pen' c).2.cur = pen'.start ∧ (step arcOf true pen' c).2.start = pen'.start ∧
        (step arcOf true pen' c).1.isMove = false ∧ (step arcOf true pen' c).1.isClose = false := by
      cases c <;> simp only [Cmd.endsInClose] at hc <;> subst hc <;>
        simp [step, Pen.stop, Seg.isMove, Seg.isClose]
    refine ⟨⟨.move, none, some p, r0, true⟩ :: draw arcOf true ⟨p, p, none⟩ cs, (step arcOf true pen' c).1,
      pen'.start,
      draw arcOf true (step arcOf true (step arcOf true pen' c).2 (.close rel)).2 cs2, ?_, trivial, hstep.1, hstep.2.2.2.1, hstep.2.2.2.2, ?_⟩
    · have hcl : ∀ P : Pen K, (step arcOf true P (.close rel)).1 = ⟨.close, some P.cur, some P.start, rel, true⟩ :=
        fun _ => rfl
      simp only [draw, List.cons_append, hcl, hstep.2.1, hstep.2.2.1]
    · simp only [List.cons_append, List.nil_append] at h2
      cases hf : List.find? Seg.isMove
          (⟨.move, none, some p, r0, true⟩ :: draw arcOf true ⟨p, p, none⟩ cs : List (Seg K)).reverse with
      | none => rw [hf] at h2; simp at h2
      | some m => rw [hf] at h2; exact ⟨m, rfl, by simpa using h2⟩

/-! ### a text that meets the hypotheses -/

/-- an example: implicit lineto, a number ended by a sign, a relative command, a completing close -/
def exCmds : List (Cmd ℚ) :=
  [.move false ⟨1, 1⟩, .line false (.pt ⟨2, -2⟩), .horiz true 3, .line false .close, .close true]

theorem exWrites : Writes floatVal exCmds "M1,1 2-2h3L z".toList := by
  have n1 : IsNumber ['1'] := (matchFloat_sound (s := ['1']) (r := []) (by decide)).2
  have n2 : IsNumber ['2'] := (matchFloat_sound (s := ['2']) (r := []) (by decide)).2
  have nm2 : IsNumber ['-', '2'] := (matchFloat_sound (s := ['-', '2']) (r := []) (by decide)).2
  have n3 : IsNumber ['3'] := (matchFloat_sound (s := ['3']) (r := []) (by decide)).2
  have v1 : floatVal ['1'] = 1 := by decide +kernel
  have v2 : floatVal ['2'] = 2 := by decide +kernel
  have vm2 : floatVal ['-', '2'] = -2 := by decide +kernel
  have v3 : floatVal ['3'] = 3 := by decide +kernel
  have sp : AllSep [' '] := by simp [AllSep, IsSep]
  have sc : AllSep [','] := by simp [AllSep, IsSep]
  have s0 : AllSep [] := by simp [AllSep]
  refine CmdText.letter _ [] (.move false ⟨1, 1⟩) _ "1,1 2-2h3L z".toList " 2-2h3L z".toList s0 ?_ ?_
  · rw [Cmd.args, ptArgs, ← v1]
    exact ArgText.num [] ['1'] _ _ _ s0 n1 (matchFloat_maximal (s := "1,1 2-2h3L z".toList) (by decide))
      (ArgText.num [','] ['1'] _ _ _ sc n1 (matchFloat_maximal (s := "1 2-2h3L z".toList) (by decide))
        (ArgText.nil _))
  refine CmdText.implied _ (.line false (.pt ⟨2, -2⟩)) _ " 2-2h3L z".toList "h3L z".toList rfl
    (by simp [Cmd.args, End.args, ptArgs]) ?_ ?_
  · rw [Cmd.args, End.args, ptArgs, ← v2]
    rw [show (-floatVal ['2'] : ℚ) = floatVal ['-', '2'] by decide +kernel]
    exact ArgText.num [' '] ['2'] _ _ _ sp n2 (matchFloat_maximal (s := "2-2h3L z".toList) (by decide))
      (ArgText.num [] ['-', '2'] _ _ _ s0 nm2 (matchFloat_maximal (s := "-2h3L z".toList) (by decide))
        (ArgText.nil _))
  refine CmdText.letter _ [] (.horiz true 3) _ "3L z".toList "L z".toList s0 ?_ ?_
  · rw [Cmd.args, ← v3]
    exact ArgText.num [] ['3'] _ _ _ s0 n3 (matchFloat_maximal (s := "3L z".toList) (by decide)) (ArgText.nil _)
  refine CmdText.letter _ [] (.line false .close) _ " z".toList " z".toList s0 (ArgText.nil _) ?_
  exact CmdText.letter _ [' '] (.close true) _ [] [] sp (ArgText.nil _) (CmdText.nil _ _ s0)

theorem exWellFormed : WellFormed exCmds := by
  simp [WellFormed, exCmds, Completed, Cmd.endsInClose, Cmd.isClose]

example : (parse floatVal dummyArc [] "M1,1 2-2h3L z".toList).1.path.map Seg.stop =
    [some ⟨1, 1⟩, some ⟨2, -2⟩, some ⟨5, -2⟩, some ⟨1, 1⟩, some ⟨1, 1⟩] := by
  rw [C38_svg_partial (arcOf := fun a _ _ _ _ _ _ => ⟨a, a, a, 0⟩) (fun _ _ _ _ _ _ _ => rfl) exWellFormed
    (by simp [NoMixedSmooth, exCmds]) exWrites]
  decide +kernel

example : ∃ pre seg q post, (parse floatVal dummyArc [] "M1,1 2-2h3L z".toList).1.path =
    pre ++ seg :: ⟨.close, some q, some q, true, true⟩ :: post := by
  obtain ⟨pre, seg, q, post, h, -⟩ := C42_segment_completing_close (rd := floatVal) (mk := dummyArc)
    (arcOf := fun a _ _ _ _ _ _ => ⟨a, a, a, 0⟩) (fun _ _ _ _ _ _ _ => rfl)
    (cs := [.move false ⟨1, 1⟩, .line false (.pt ⟨2, -2⟩), .horiz true 3]) (cs2 := []) (c := .line false .close)
    (rel := true) rfl exWellFormed exWrites
  exact ⟨pre, seg, q, post, h⟩

/-- the relative form of the example is writable too -/
example : relForm (fun a _ _ _ _ _ _ => ⟨a, a, a, 0⟩) exCmds =
    [.move true ⟨1, 1⟩, .line true (.pt ⟨1, -3⟩), .horiz true 3, .line true .close, .close true] := by
  decide +kernel

end Svgio.Props
