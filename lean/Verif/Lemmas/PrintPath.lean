import Verif.Lemmas.Print
import Verif.Lemmas.Chain
import Verif.Lemmas.PathMain

/-!
Printed path data writes the commands of the path.
-/

namespace Svgio.Print

open Spec

variable {val : List Char → ℚ}

/-! ### arguments -/

/-- the text goes on with a separator, or ends -/
def SepHead (r : List Char) : Prop := ∀ c ∈ r.head?, c = ' ' ∨ c = ','

theorem argText_append {as bs : List (ArgVal ℚ)} {s u r : List Char} (h1 : ArgText val as u s) (h2 : ArgText val bs r u) :
    ArgText val (as ++ bs) r s := by
  induction h1 with
  | nil r' => exact h2
  | num w t u' r' as' hw ht hs _ ih => exact ArgText.num w t u' r _ hw ht hs (ih h2)
  | flag w b u' r' as' hw _ ih => exact ArgText.flag w b u' r _ hw (ih h2)

/-- the text `a` is the arguments `as`, whatever separator comes next -/
def ArgsOf (val : List Char → ℚ) (as : List (ArgVal ℚ)) (a : List Char) : Prop := ∀ r, SepHead r → ArgText val as r (a ++ r)

theorem argsOf_nil : ArgsOf val [] [] := fun r _ => ArgText.nil r

theorem argsOf_append {as bs : List (ArgVal ℚ)} {a b : List Char} (h1 : ArgsOf val as a) (h2 : ArgsOf val bs b)
    (hb : ∀ r, SepHead r → SepHead (b ++ r)) : ArgsOf val (as ++ bs) (a ++ b) := by
  intro r hr
  rw [List.append_assoc]
  exact argText_append (h1 _ (hb r hr)) (h2 r hr)

theorem sepHead_cons {c : Char} (h : c = ' ' ∨ c = ',') (t : List Char) : SepHead (c :: t) := by
  intro d hd
  simp only [List.head?_cons, Option.mem_def, Option.some.injEq] at hd
  exact hd ▸ h

theorem allSep_one {c : Char} (h : c = ' ' ∨ c = ',') : AllSep [c] := by
  intro d hd
  rw [List.mem_singleton] at hd
  subst hd
  rcases h with h | h
  · exact Or.inl h
  · exact Or.inr (Or.inl h)

theorem argsOf_num {c : Char} (hc : c = ' ' ∨ c = ',') {t : List Char} (ht : IsNumber t) : ArgsOf val [.num (val t)] (c :: t) := by
  intro r hr
  have hs : Stops t r := stops_of_head fun d hd h => by
    have : ¬ NumChar ' ' ∧ ¬ NumChar ',' := by unfold NumChar IsDigit; decide
    rcases hr d hd with rfl | rfl
    · exact this.1 h
    · exact this.2 h
  exact ArgText.num [c] t r r [] (allSep_one hc) ht hs (ArgText.nil r)

theorem argsOf_flag {c : Char} (hc : c = ' ' ∨ c = ',') (b : Bool) : ArgsOf val [.flag b] [c, flagText b] := fun r _ =>
  ArgText.flag [c] b r r [] (allSep_one hc) (ArgText.nil r)

/-- the coordinate that is read back -/
def rd12 (val : List Char → ℚ) (x : ℚ) : ℚ := val (coordText x)
/-- the point that is read back -/
def rdPt (val : List Char → ℚ) (p : Pt ℚ) : Pt ℚ := ⟨rd12 val p.x, rd12 val p.y⟩
/-- the arc parameter that is read back -/
def rd6 (val : List Char → ℚ) (x : ℚ) : ℚ := val (fmtG 6 x)

theorem argsOf_pt (p : Pt ℚ) : ArgsOf val (ptArgs (rdPt val p)) (' ' :: ptText p) := by
  have h1 := argsOf_num (val := val) (c := ' ') (Or.inl rfl) (coordText_number p.x).1
  have h2 := argsOf_num (val := val) (c := ',') (Or.inr rfl) (coordText_number p.y).1
  exact argsOf_append h1 h2 fun r _ => sepHead_cons (Or.inr rfl) _

theorem argsOf_pts {as : List (ArgVal ℚ)} {a : List Char} (h : ArgsOf val as a) (p : Pt ℚ) :
    ArgsOf val (as ++ ptArgs (rdPt val p)) (a ++ ' ' :: ptText p) :=
  argsOf_append h (argsOf_pt p) fun _ _ => sepHead_cons (Or.inl rfl) _

theorem argsOf_arc (a : ArcArgs) (p : Pt ℚ) :
    ArgsOf val ([.num (rd6 val a.rx), .num (rd6 val a.ry), .num (rd6 val a.rot), .flag a.large, .flag a.sweep] ++ ptArgs (rdPt val p))
      (' ' :: (arcArgsText a ++ ptText p)) := by
  have n : ∀ x, IsNumber (fmtG 6 x) := fun x => (fmtG_number (by norm_num) x).1
  have h1 := argsOf_num (val := val) (c := ' ') (Or.inl rfl) (n a.rx)
  have h2 := argsOf_num (val := val) (c := ',') (Or.inr rfl) (n a.ry)
  have h3 := argsOf_num (val := val) (c := ' ') (Or.inl rfl) (n a.rot)
  have h4 := argsOf_flag (val := val) (c := ' ') (Or.inl rfl) a.large
  have h5 := argsOf_flag (val := val) (c := ',') (Or.inr rfl) a.sweep
  have h6 := argsOf_append (argsOf_append (argsOf_append (argsOf_append (argsOf_append h1 h2
    fun _ _ => sepHead_cons (Or.inr rfl) _) h3 fun _ _ => sepHead_cons (Or.inl rfl) _) h4
    fun _ _ => sepHead_cons (Or.inl rfl) _) h5 fun _ _ => sepHead_cons (Or.inr rfl) _) (argsOf_pt p)
    fun _ _ => sepHead_cons (Or.inl rfl) _
  have e : ' ' :: (arcArgsText a ++ ptText p) =
      ((((' ' :: fmtG 6 a.rx ++ ',' :: fmtG 6 a.ry) ++ ' ' :: fmtG 6 a.rot) ++ [' ', flagText a.large]) ++ [',', flagText a.sweep]) ++
        ' ' :: ptText p := by
    simp [arcArgsText]
  rw [e]
  exact h6

/-! ### the command of a segment -/

/-- a printed point -/
def argPt (val : List Char → ℚ) (rel : Bool) (cur q : Pt ℚ) : Pt ℚ := if rel then rdPt val (q.sub cur) else rdPt val q

/-- the command that is printed for a segment -/
def cmdOf (val : List Char → ℚ) (ar : ArcData ℚ → ArcArgs) (rel sm : Bool) (cur : Pt ℚ) (s : Seg ℚ) : Cmd ℚ :=
  let g := fun q : Option (Pt ℚ) => argPt val rel cur (q.getD ⟨0, 0⟩)
  match s.kind with
  | .move => .move rel (g s.stop)
  | .close => .close rel
  | .line => .line rel (.pt (g s.stop))
  | .quad c => if sm then .smoothQuad rel (.pt (g s.stop)) else .quad rel (g c) (.pt (g s.stop))
  | .cubic c1 c2 => if sm then .smoothCubic rel (g c2) (.pt (g s.stop)) else .cubic rel (g c1) (g c2) (.pt (g s.stop))
  | .arc a => .arc rel (rd6 val (ar a).rx) (rd6 val (ar a).ry) (rd6 val (ar a).rot) (ar a).large (ar a).sweep (.pt (g s.stop))

/-- the text of a point -/
def argTxt (rel : Bool) (cur q : Pt ℚ) : List Char := if rel then ptText (q.sub cur) else ptText q

theorem argsOf_arg (rel : Bool) (cur q : Pt ℚ) : ArgsOf val (ptArgs (argPt val rel cur q)) (' ' :: argTxt rel cur q) := by
  unfold argPt argTxt; cases rel <;> exact argsOf_pt _

theorem argsOf_args {as : List (ArgVal ℚ)} {a : List Char} (h : ArgsOf val as a) (rel : Bool) (cur q : Pt ℚ) :
    ArgsOf val (as ++ ptArgs (argPt val rel cur q)) (a ++ ' ' :: argTxt rel cur q) :=
  argsOf_append h (argsOf_arg rel cur q) fun _ _ => sepHead_cons (Or.inl rfl) _

theorem segD_ok (ar : ArcData ℚ → ArcArgs) (rel sm : Bool) (cur : Pt ℚ) (s : Seg ℚ) (h : s.stop ≠ none) (hc : HasControls s) :
    ∃ a, segD ar s (some cur) (some rel) (some sm) = .ok ((cmdOf val ar rel sm cur s).letter :: a) ∧
      ArgsOf val (cmdOf val ar rel sm cur s).args a := by
  obtain ⟨u, hu⟩ := Option.ne_none_iff_exists'.1 h
  obtain ⟨k, st, en, r0, s0⟩ := s
  simp only at hu
  subst hu
  have habs : isAbs (some cur) (some rel) r0 = !rel := by cases rel <;> rfl
  have hp := argsOf_arg (val := val) rel cur
  cases k with
  | move =>
    refine ⟨' ' :: argTxt rel cur u, ?_, by simpa [cmdOf, Cmd.args] using hp u⟩
    cases rel <;> simp [segD, habs, cmdOf, Cmd.letter, optText, relText, argTxt, bind, Except.bind]
  | close =>
    refine ⟨[], ?_, by simpa [cmdOf, Cmd.args] using argsOf_nil⟩
    cases rel <;> simp [segD, habs, cmdOf, Cmd.letter]
  | line =>
    refine ⟨' ' :: argTxt rel cur u, ?_, by simpa [cmdOf, Cmd.args, End.args] using hp u⟩
    cases rel <;> simp [segD, habs, cmdOf, Cmd.letter, optText, relText, argTxt, bind, Except.bind]
  | quad c =>
    obtain ⟨c, rfl⟩ := Option.ne_none_iff_exists'.1 (show c ≠ none from hc)
    cases sm with
    | true =>
      refine ⟨' ' :: argTxt rel cur u, ?_, by simpa [cmdOf, Cmd.args, End.args] using hp u⟩
      cases rel <;> simp [segD, habs, cmdOf, Cmd.letter, optText, relText, argTxt, bind, Except.bind]
    | false =>
      refine ⟨' ' :: argTxt rel cur c ++ ' ' :: argTxt rel cur u, ?_,
        by simpa [cmdOf, Cmd.args, End.args] using argsOf_args (hp c) rel cur u⟩
      cases rel <;> simp [segD, habs, cmdOf, Cmd.letter, optText, relText, argTxt, bind, Except.bind]
  | cubic c1 c2 =>
    obtain ⟨h1, h2⟩ := (show c1 ≠ none ∧ c2 ≠ none from hc)
    obtain ⟨c1, rfl⟩ := Option.ne_none_iff_exists'.1 h1
    obtain ⟨c2, rfl⟩ := Option.ne_none_iff_exists'.1 h2
    cases sm with
    | true =>
      refine ⟨' ' :: argTxt rel cur c2 ++ ' ' :: argTxt rel cur u, ?_,
        by simpa [cmdOf, Cmd.args, End.args] using argsOf_args (hp c2) rel cur u⟩
      cases rel <;> simp [segD, habs, cmdOf, Cmd.letter, optText, relText, argTxt, bind, Except.bind]
    | false =>
      refine ⟨' ' :: argTxt rel cur c1 ++ ' ' :: argTxt rel cur c2 ++ ' ' :: argTxt rel cur u, ?_,
        by simpa [cmdOf, Cmd.args, End.args] using argsOf_args (argsOf_args (hp c1) rel cur c2) rel cur u⟩
      cases rel <;> simp [segD, habs, cmdOf, Cmd.letter, optText, relText, argTxt, bind, Except.bind]
  | arc a =>
    refine ⟨' ' :: (arcArgsText (ar a) ++ argTxt rel cur u), ?_, ?_⟩
    · cases rel <;> simp [segD, habs, cmdOf, Cmd.letter, optText, relText, argTxt, bind, Except.bind]
    · have h := argsOf_arc (val := val) (ar a)
      cases rel
      · simpa [cmdOf, Cmd.args, End.args, argPt, argTxt] using h u
      · simpa [cmdOf, Cmd.args, End.args, argPt, argTxt] using h (u.sub cur)

/-- the decision for the short form of a curve -/
def Shortened (smooth : Option Bool) (prev : Option (Seg ℚ)) (s : Seg ℚ) : Prop :=
  smooth.getD s.smooth = true ∧ isSmoothFrom s prev = .ok true

theorem isSmoothFrom_ok {s : Seg ℚ} {prev : Option (Seg ℚ)} (hs : s.start ≠ none) (hc : HasControls s)
    (hk : (∃ c, s.kind = .quad c) ∨ ∃ c1 c2, s.kind = .cubic c1 c2)
    (hp : ∀ p, prev = some p → HasControls p ∧ p.stop ≠ none) : ∃ b, isSmoothFrom s prev = .ok b := by
  have hcont : ∀ a c b d : Option (Pt ℚ), a ≠ none → c ≠ none → b ≠ none → d ≠ none → ∃ r, continues a c b d = .ok r := by
    intro a c b d ha hc hb hd
    obtain ⟨a, rfl⟩ := Option.ne_none_iff_exists'.1 ha
    obtain ⟨c, rfl⟩ := Option.ne_none_iff_exists'.1 hc
    obtain ⟨b, rfl⟩ := Option.ne_none_iff_exists'.1 hb
    obtain ⟨d, rfl⟩ := Option.ne_none_iff_exists'.1 hd
    unfold continues
    split <;> exact ⟨_, rfl⟩
  unfold isSmoothFrom
  rcases hk with ⟨c, hk⟩ | ⟨c1, c2, hk⟩
  · rw [hk]
    unfold HasControls at hc
    rw [hk] at hc
    cases prev with
    | none => exact ⟨_, rfl⟩
    | some p =>
      obtain ⟨h1, h2⟩ := hp p rfl
      unfold HasControls at h1
      simp only
      split
      · rename_i pc hpk
        rw [hpk] at h1
        exact hcont _ _ _ _ hs hc h2 h1
      · exact ⟨_, rfl⟩
  · rw [hk]
    unfold HasControls at hc
    rw [hk] at hc
    cases prev with
    | none => exact ⟨_, rfl⟩
    | some p =>
      obtain ⟨h1, h2⟩ := hp p rfl
      unfold HasControls at h1
      simp only
      split
      · rename_i pc1 pc2 hpk
        rw [hpk] at h1
        exact hcont _ _ _ _ hs hc.1 h2 h1.2
      · exact ⟨_, rfl⟩

theorem segD_smooth_irrelevant (ar : ArcData ℚ → ArcArgs) (s : Seg ℚ) (cur : Option (Pt ℚ)) (rel sm sm' : Option Bool)
    (h : ¬ ((∃ c, s.kind = .quad c) ∨ ∃ c1 c2, s.kind = .cubic c1 c2)) : segD ar s cur rel sm = segD ar s cur rel sm' := by
  unfold segD
  simp only [not_or, not_exists] at h
  cases hk : s.kind with
  | quad c => exact absurd hk (h.1 c)
  | cubic c1 c2 => exact absurd hk (h.2 c1 c2)
  | _ => rfl

theorem partD_ok (ar : ArcData ℚ → ArcArgs) (relative smooth : Option Bool) (prev : Option (Seg ℚ)) (cur : Pt ℚ) (s : Seg ℚ)
    (h : s.stop ≠ none) (hs : s.start ≠ none) (hc : HasControls s) (hp : ∀ p, prev = some p → HasControls p ∧ p.stop ≠ none) :
    ∃ sm a, partD ar relative smooth prev (some cur) s = .ok ((cmdOf val ar (relative.getD s.relative) sm cur s).letter :: a) ∧
      ArgsOf val (cmdOf val ar (relative.getD s.relative) sm cur s).args a ∧ (sm = true → Shortened smooth prev s) := by
  by_cases hk : (∃ c, s.kind = .quad c) ∨ ∃ c1 c2, s.kind = .cubic c1 c2
  · have e : partD ar relative smooth prev (some cur) s = if smooth.getD s.smooth then do
        let b ← isSmoothFrom s prev
        segD ar s (some cur) (some (relative.getD s.relative)) (some b)
      else segD ar s (some cur) (some (relative.getD s.relative)) (some false) := by
      unfold partD
      rcases hk with ⟨c, hk⟩ | ⟨c1, c2, hk⟩ <;> rw [hk]
    rw [e]
    by_cases hsm : smooth.getD s.smooth = true
    · rw [if_pos hsm]
      obtain ⟨b, hb⟩ := isSmoothFrom_ok hs hc hk hp
      obtain ⟨a, h1, h2⟩ := segD_ok (val := val) ar (relative.getD s.relative) b cur s h hc
      refine ⟨b, a, ?_, h2, ?_⟩
      · rw [hb]; exact h1
      · rintro rfl; exact ⟨hsm, hb⟩
    · rw [if_neg hsm]
      obtain ⟨a, h1, h2⟩ := segD_ok (val := val) ar (relative.getD s.relative) false cur s h hc
      exact ⟨false, a, h1, h2, by simp⟩
  · have e : partD ar relative smooth prev (some cur) s = segD ar s (some cur) (some (relative.getD s.relative)) none := by
      unfold partD
      simp only [not_or, not_exists] at hk
      cases hkk : s.kind with
      | quad c => exact absurd hkk (hk.1 c)
      | cubic c1 c2 => exact absurd hkk (hk.2 c1 c2)
      | _ => rfl
    obtain ⟨a, h1, h2⟩ := segD_ok (val := val) ar (relative.getD s.relative) false cur s h hc
    refine ⟨false, a, ?_, h2, by simp⟩
    rw [e, segD_smooth_irrelevant _ _ _ _ none (some false) hk]
    exact h1

/-! ### drawing the printed commands -/

/-- the control point remembered after a segment -/
def ctrlOf (R : Pt ℚ → Pt ℚ) (s : Seg ℚ) : Option (Curve × Pt ℚ) :=
  match s.kind with
  | .quad (some c) => some (.quad, R c)
  | .cubic _ (some c) => some (.cubic, R c)
  | _ => none

/-- the arc that is read back -/
def arcBack (val : List Char → ℚ) (ar : ArcData ℚ → ArcArgs) (arcOf : ArcOf ℚ) (a : ArcData ℚ) (p q : Pt ℚ) : ArcData ℚ :=
  arcOf p (rd6 val (ar a).rx) (rd6 val (ar a).ry) (rd6 val (ar a).rot) (ar a).large (ar a).sweep q

/-- the short form has the right control point -/
def SmoothFits (R : Pt ℚ → Pt ℚ) (pen : Pen ℚ) (s : Seg ℚ) : Prop :=
  (∀ c, s.kind = .quad (some c) → pen.smooth true .quad = R c) ∧
  (∀ c1 c2, s.kind = .cubic (some c1) c2 → pen.smooth true .cubic = R c1)

theorem step_cmdOf (ar : ArcData ℚ → ArcArgs) (arcOf : ArcOf ℚ) (R : Pt ℚ → Pt ℚ) (rel sm : Bool) (pen : Pen ℚ) (z cur u : Pt ℚ)
    (s : Seg ℚ) (hcur : pen.cur = R cur) (hz : pen.start = R z) (hst : s.start = some cur) (hu : s.stop = some u)
    (hcl : s.isClose = true → z = u) (hc : HasControls s) (hR : ∀ q ∈ drawnPts s, pen.pt rel (argPt val rel cur q) = R q)
    (hsm : sm = true → SmoothFits R pen s) :
    noSmooth (step arcOf true pen (cmdOf val ar rel sm cur s)).1 = redrawn R (arcBack val ar arcOf) rel s ∧
      (step arcOf true pen (cmdOf val ar rel sm cur s)).2 = ⟨R u, R (if s.isMove then u else z), ctrlOf R s⟩ := by
  obtain ⟨k, st, en, r0, s0⟩ := s
  simp only at hst hu
  subst hst hu
  have hRu : pen.pt rel (argPt val rel cur u) = R u := hR u (by simp [drawnPts])
  cases k with
  | move => simp [cmdOf, step, redrawn, noSmooth, hRu, hcur, ctrlOf, Seg.isMove]
  | close =>
    have := hcl rfl
    subst this
    simp [cmdOf, step, redrawn, noSmooth, hz, hcur, ctrlOf, Seg.isMove]
  | line => simp [cmdOf, step, redrawn, noSmooth, hRu, hcur, hz, ctrlOf, Seg.isMove, Pen.stop]
  | quad c =>
    obtain ⟨c, rfl⟩ := Option.ne_none_iff_exists'.1 (show c ≠ none from hc)
    have hRc : pen.pt rel (argPt val rel cur c) = R c := hR c (by simp [drawnPts])
    cases sm with
    | true =>
      have := (hsm rfl).1 c rfl
      simp [cmdOf, step, redrawn, noSmooth, hRu, hcur, hz, ctrlOf, Seg.isMove, Pen.stop, this]
    | false => simp [cmdOf, step, redrawn, noSmooth, hRu, hcur, hz, ctrlOf, Seg.isMove, Pen.stop, hRc]
  | cubic c1 c2 =>
    obtain ⟨h1, h2⟩ := (show c1 ≠ none ∧ c2 ≠ none from hc)
    obtain ⟨c1, rfl⟩ := Option.ne_none_iff_exists'.1 h1
    obtain ⟨c2, rfl⟩ := Option.ne_none_iff_exists'.1 h2
    have hRc1 : pen.pt rel (argPt val rel cur c1) = R c1 := hR c1 (by simp [drawnPts])
    have hRc2 : pen.pt rel (argPt val rel cur c2) = R c2 := hR c2 (by simp [drawnPts])
    cases sm with
    | true =>
      have := (hsm rfl).2 c1 _ rfl
      simp [cmdOf, step, redrawn, noSmooth, hRu, hcur, hz, ctrlOf, Seg.isMove, Pen.stop, this, hRc2]
    | false => simp [cmdOf, step, redrawn, noSmooth, hRu, hcur, hz, ctrlOf, Seg.isMove, Pen.stop, hRc1, hRc2]
  | arc a => simp [cmdOf, step, redrawn, noSmooth, hRu, hcur, hz, ctrlOf, Seg.isMove, Pen.stop, arcBack]

/-- every part with a space before it -/
def joinTail : List (List Char) → List Char
  | [] => []
  | t :: r => ' ' :: (t ++ joinTail r)

theorem joinSp_cons (t : List Char) (r : List (List Char)) : joinSp (t :: r) = t ++ joinTail r := by
  induction r generalizing t with
  | nil => simp [joinSp, joinTail]
  | cons a r ih => rw [joinSp, ih, joinTail]; simp

theorem sepHead_tail (r : List (List Char)) : SepHead (joinTail r) := by
  cases r with
  | nil => intro c hc; simp [joinTail] at hc
  | cons a r => exact sepHead_cons (Or.inl rfl) _

theorem cmdOf_not_completed (ar : ArcData ℚ → ArcArgs) (rel sm : Bool) (cur : Pt ℚ) (s : Seg ℚ) :
    ¬ (cmdOf val ar rel sm cur s).endsInClose := by
  unfold cmdOf
  cases s.kind <;> cases sm <;> simp [Cmd.endsInClose]

/-- a relation between neighbours -/
def Adj (Q : Seg ℚ → Seg ℚ → Prop) : Seg ℚ → List (Seg ℚ) → Prop
  | _, [] => True
  | a, b :: r => Q a b ∧ Adj Q b r

theorem partsD_ok (ar : ArcData ℚ → ArcArgs) (arcOf : ArcOf ℚ) (R : Pt ℚ → Pt ℚ) (relative smooth : Option Bool) (p : List (Seg ℚ)) :
    ∀ (prev : Seg ℚ) (z e : Pt ℚ) (pen : Pen ℚ), Chain Eq Eq z e p → (∀ s ∈ p, HasControls s) → HasControls prev → prev.stop = some e →
      pen = ⟨R e, R z, ctrlOf R prev⟩ →
      (Adj (fun a b => ∀ cur, a.stop = some cur → ∀ q ∈ drawnPts b, ∀ pen : Pen ℚ, pen.cur = R cur →
        pen.pt (relative.getD b.relative) (argPt val (relative.getD b.relative) cur q) = R q) prev p) →
      (Adj (fun a b => Shortened smooth (some a) b → ∀ cur, a.stop = some cur → b.start = some cur → ∀ pen : Pen ℚ, pen.cur = R cur →
        pen.ctrl = ctrlOf R a → SmoothFits R pen b) prev p) →
      ∃ ts cs, partsD ar relative smooth (some prev) (some e) p = .ok ts ∧ (∀ l, CmdText val l cs (joinTail ts)) ∧
        (draw arcOf true pen cs).map noSmooth = p.map (fun s => redrawn R (arcBack val ar arcOf) (relative.getD s.relative) s) ∧
        Completed cs := by
  induction p with
  | nil =>
    intro prev z e pen _ _ _ _ _ _ _
    exact ⟨[], [], rfl, fun l => CmdText.nil l [] (by intro c hc; simp at hc), rfl, trivial⟩
  | cons s r ih =>
    intro prev z e pen hch hC hpc hpe hpen hA hS
    obtain ⟨v, u, hv, hu, rfl, hcl, hch⟩ := hch
    have hs := hC s (by simp)
    obtain ⟨sm, a, h1, h2, h3⟩ := partD_ok (val := val) ar relative smooth (some prev) e s (by rw [hu]; simp) (by rw [hv]; simp) hs
      (by rintro p ⟨⟩; exact ⟨hpc, by rw [hpe]; simp⟩)
    have hstep := step_cmdOf ar arcOf R (relative.getD s.relative) sm pen z e u s (by rw [hpen]) (by rw [hpen]) hv hu hcl hs
      (fun q hq => hA.1 e hpe q hq pen (by rw [hpen]))
      (fun h => hS.1 (h3 h) e hpe hv pen (by rw [hpen]) (by rw [hpen]))
    obtain ⟨ts, cs, g1, g2, g3, g4⟩ := ih s (if s.isMove then u else z) u _ hch (fun t ht => hC t (by simp [ht])) hs hu hstep.2 hA.2 hS.2
    refine ⟨((cmdOf val ar (relative.getD s.relative) sm e s).letter :: a) :: ts, cmdOf val ar (relative.getD s.relative) sm e s :: cs, ?_, ?_, ?_, ?_⟩
    · rw [partsD, h1, hu]
      simp only [bind, Except.bind, g1]
    · intro l
      have := CmdText.letter l [' '] _ cs (a ++ joinTail ts) (joinTail ts) (allSep_one (Or.inl rfl)) (h2 _ (sepHead_tail ts)) (g2 _)
      simpa [joinTail] using this
    · rw [draw, List.map_cons, List.map_cons, hstep.1, g3]
    · exact ⟨fun h => absurd h (cmdOf_not_completed _ _ _ _ _), g4⟩

end Svgio.Print
