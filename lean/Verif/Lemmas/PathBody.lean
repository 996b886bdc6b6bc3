import Verif.Lemmas.PathLex

/-! One command of path data: what the loop body reads and builds. -/

namespace Svgio.Lexer
open Spec

variable {K : Type} [Field K] [LinearOrder K] [IsStrictOrderedRing K]
variable {rd : List Char → K}

/-- the path has been drawn up to the drawing state `pen` -/
def Agree (p : List (Seg K)) (pen : Pen K) : Prop :=
  Path.At p pen.cur pen.start (pen.smooth true .quad)

theorem smooth_any (pen : Pen K) (k : Curve) : pen.smooth true k = pen.smooth true .quad := by
  unfold Pen.smooth; split <;> simp

/-- the kind of coordinate a command reads -/
def coordKind (rel : Bool) : ArgKind := if rel then .rcoord else .coord

theorem readPt {pen : Pen K} {rel : Bool} {p : Pt K} {as r s inl}
    (h : ArgText rd (ptArgs p ++ as) r s) :
    ∃ u, readArg rd (some pen.cur) (coordKind rel) ⟨s, inl⟩ = (.ok (.coord (some (pen.pt rel p))), ⟨u, inl⟩) ∧
      ArgText rd as r u := by
  obtain ⟨u, h1, h2⟩ := ArgText.coord (inl := inl) h
  refine ⟨u, ?_, h2⟩
  cases rel
  · simp [readArg, coordKind, h1, Pen.pt, Except.map]
  · simp [readArg, coordKind, rcoord, h1, Pen.pt, Except.map, add_comm]

theorem readEnd {path : List (Seg K)} {pen : Pen K} (ha : Agree path pen) {rel : Bool} {e : End K} {r s}
    (h : ArgText rd e.args r s) (hz : e = .close → AtZ r) :
    ∃ l q t, readArg rd (some pen.cur) (coordKind rel) ⟨s, none⟩ = (.ok (.coord q), l) ∧ Ready r l ∧
      orClose l.inl q = .ok t ∧ t.get path = some (pen.stop rel e) := by
  cases e with
  | pt p =>
    obtain ⟨u, h1, h2⟩ := readPt (pen := pen) (rel := rel) (as := []) (inl := none) (by rw [List.append_nil]; exact h)
    cases h2
    exact ⟨_, _, _, h1, Ready.refl _, rfl, rfl⟩
  | close =>
    obtain ⟨c, q, h1, h2⟩ := hz rfl
    cases h
    refine ⟨⟨c :: q, some c⟩, none, .z, ?_, ⟨by rw [← h1]; exact skip_idem r, Or.inr ⟨c, q, h1, h2⟩⟩, rfl, ?_⟩
    · cases rel <;> simp [readArg, coordKind, rcoord, coord_close h1 h2, Except.map]
    · simp [Path.Target.get, ha.z, Pen.stop]

theorem readArgs_cons {cur : Option (Pt K)} {k ks l a l1 as l2}
    (h1 : readArg rd cur k l = (.ok a, l1)) (h2 : readArgs rd cur ks l1 = (.ok as, l2)) :
    readArgs rd cur (k :: ks) l = (.ok (a :: as), l2) := by
  unfold readArgs
  simp only [h1, h2]

theorem readArgs_nil {cur : Option (Pt K)} {l} : readArgs rd cur [] l = (.ok [], l) := rfl

theorem body_eq {mk : Path.ArcCtor K} {c : Char} {path path' : List (Seg K)} {s l as} {pen : Pen K}
    (ha : Agree path pen) (h1 : readArgs rd (some pen.cur) (argSpec c) ⟨s, none⟩ = (.ok as, l))
    (h2 : finish mk c l.inl path as = .ok path') :
    body rd mk c ⟨path, ⟨s, none⟩⟩ = (⟨path', l⟩, none) := by
  unfold body
  simp only [ha.cur, h1, h2]

variable {mk : Path.ArcCtor K} {arcOf : ArcOf K}

theorem bind_ok {α β : Type} {a : α} {f : α → Except PyErr β} : ((Except.ok a : Except PyErr α) >>= f) = f a := rfl

theorem readNum {cur : Option (Pt K)} {l l' x} (h : number rd l = (x, l')) :
    readArg rd cur .num l = (.ok (.num x), l') := by simp [readArg, h]
theorem readFlag {cur : Option (Pt K)} {l l' x} (h : flag l = (x, l')) :
    readArg rd cur .flag l = (.ok (.flag x), l') := by simp [readArg, h]

theorem orClose_some {inl} {q : Pt K} : orClose inl (some q) = .ok (.pt q) := rfl
theorem get_pt {path : List (Seg K)} {q : Pt K} : (Path.Target.pt q).get path = some q := rfl
theorem smooth_after {cur start c : Pt K} {k k' : Curve} :
    (⟨cur, start, some (k, c)⟩ : Pen K).smooth true k' = ⟨2 * cur.x - c.x, 2 * cur.y - c.y⟩ := by
  simp [Pen.smooth]
theorem reflected {cur c : Pt K} : c.reflectedAcross cur = ⟨2 * cur.x - c.x, 2 * cur.y - c.y⟩ := by
  simp only [Pt.reflectedAcross, Pt.add, Pt.sub]
  congr 1 <;> ring

theorem body_step (hmk : ∀ a rx ry rot l s b, mk a (some rx) (some ry) (some rot) (some l) (some s) b =
      .ok (arcOf a rx ry rot l s b))
    {path : List (Seg K)} {pen : Pen K} (ha : Agree path pen) {cmd : Cmd K} {r s}
    (hc : ¬ cmd.isClose) (h : ArgText rd cmd.args r s) (hz : cmd.endsInClose → AtZ r) :
    ∃ l, body rd mk cmd.letter ⟨path, ⟨s, none⟩⟩ = (⟨path ++ [(step arcOf true pen cmd).1], l⟩, none) ∧
      Ready r l ∧ Agree (path ++ [(step arcOf true pen cmd).1]) (step arcOf true pen cmd).2 := by
  cases cmd with
  | move rel p =>
    obtain ⟨u, h1, h2⟩ := readPt (pen := pen) (rel := rel) (as := []) (inl := none) (by simpa [Cmd.args] using h)
    cases h2
    refine ⟨_, body_eq ha (as := [.coord (some (pen.pt rel p))]) (l := ⟨r, none⟩) ?_ ?_, Ready.refl _, ?_⟩
    · cases rel <;> exact readArgs_cons h1 readArgs_nil
    · cases rel <;>
      · simp [finish, Path.move, Cmd.letter, Path.Target.get, step]
        rw [Path.append_eq _ _ rfl rfl, ha.cur]
    · exact Path.At.snoc_move rfl rfl
  | line rel e =>
    obtain ⟨l, q, t, h1, h2, h3, h4⟩ := readEnd ha (rel := rel) h hz
    refine ⟨_, body_eq ha (as := [.coord q]) (l := l) ?_ ?_, h2, ?_⟩
    · cases rel <;> exact readArgs_cons h1 readArgs_nil
    · cases rel <;>
      · simp [finish, Path.line, Cmd.letter, h3, h4, bind_ok, step]
        rw [Path.append_eq _ _ rfl rfl, ha.cur]
    · exact Path.At.snoc ha rfl rfl rfl
  | horiz rel x =>
    obtain ⟨u, h1, h2⟩ := ArgText.number (inl := none) h
    cases h2
    refine ⟨_, body_eq ha (as := [.num (some x)]) (l := ⟨r, none⟩) ?_ ?_, Ready.refl _, ?_⟩
    · cases rel <;> exact readArgs_cons (by simp [readArg, h1]) readArgs_nil
    · cases rel <;>
      · simp [finish, Path.horizontal, Cmd.letter, ha.cur, step]
        rw [Path.append_eq _ _ ha.cur.symm rfl]
    · exact Path.At.snoc ha rfl rfl rfl
  | vert rel y =>
    obtain ⟨u, h1, h2⟩ := ArgText.number (inl := none) h
    cases h2
    refine ⟨_, body_eq ha (as := [.num (some y)]) (l := ⟨r, none⟩) ?_ ?_, Ready.refl _, ?_⟩
    · cases rel <;> exact readArgs_cons (by simp [readArg, h1]) readArgs_nil
    · cases rel <;>
      · simp [finish, Path.vertical, Cmd.letter, ha.cur, step]
        rw [Path.append_eq _ _ ha.cur.symm rfl]
    · exact Path.At.snoc ha rfl rfl rfl
  | quad rel c e =>
    obtain ⟨u, g1, g2⟩ := readPt (pen := pen) (rel := rel) (inl := none) h
    obtain ⟨l, q, t, h1, h2, h3, h4⟩ := readEnd ha (rel := rel) g2 hz
    refine ⟨_, body_eq ha (as := [.coord (some (pen.pt rel c)), .coord q]) (l := l) ?_ ?_, h2, ?_⟩
    · cases rel <;> exact readArgs_cons g1 (readArgs_cons h1 readArgs_nil)
    · cases rel <;>
      · simp [finish, Path.quad, Cmd.letter, h3, h4, bind_ok, step, orClose_some, get_pt]
        rw [Path.append_eq _ _ rfl rfl, ha.cur]
    · refine Path.At.snoc ha rfl rfl ?_
      simp [Path.smoothPoint, step, smooth_after, reflected]
  | smoothQuad rel e =>
    obtain ⟨l, q, t, h1, h2, h3, h4⟩ := readEnd ha (rel := rel) h hz
    refine ⟨_, body_eq ha (as := [.coord q]) (l := l) ?_ ?_, h2, ?_⟩
    · cases rel <;> exact readArgs_cons h1 readArgs_nil
    · cases rel <;>
      · simp [finish, Path.smoothQuad, Cmd.letter, h3, h4, bind_ok, ha.smooth, step]
        rw [Path.append_eq _ _ rfl rfl, ha.cur]
    · refine Path.At.snoc ha rfl rfl ?_
      simp [Path.smoothPoint, step, smooth_after, reflected]
  | cubic rel c1 c2 e =>
    obtain ⟨u, f1, f2⟩ := readPt (pen := pen) (rel := rel) (inl := none) h
    obtain ⟨u, g1, g2⟩ := readPt (pen := pen) (rel := rel) (inl := none) f2
    obtain ⟨l, q, t, h1, h2, h3, h4⟩ := readEnd ha (rel := rel) g2 hz
    refine ⟨_, body_eq ha (as := [.coord (some (pen.pt rel c1)), .coord (some (pen.pt rel c2)), .coord q])
      (l := l) ?_ ?_, h2, ?_⟩
    · cases rel <;> exact readArgs_cons f1 (readArgs_cons g1 (readArgs_cons h1 readArgs_nil))
    · cases rel <;>
      · simp [finish, Path.cubic, Path.mkCubic, Cmd.letter, h3, h4, bind_ok, step, orClose_some, get_pt]
        rw [Path.append_eq _ _ rfl rfl, ha.cur]
    · refine Path.At.snoc ha rfl rfl ?_
      simp [Path.smoothPoint, step, smooth_after, reflected]
  | smoothCubic rel c2 e =>
    obtain ⟨u, g1, g2⟩ := readPt (pen := pen) (rel := rel) (inl := none) h
    obtain ⟨l, q, t, h1, h2, h3, h4⟩ := readEnd ha (rel := rel) g2 hz
    refine ⟨_, body_eq ha (as := [.coord (some (pen.pt rel c2)), .coord q]) (l := l) ?_ ?_, h2, ?_⟩
    · cases rel <;> exact readArgs_cons g1 (readArgs_cons h1 readArgs_nil)
    · cases rel <;>
      · simp [finish, Path.smoothCubic, Path.mkCubic, Cmd.letter, h3, h4, bind_ok, step, orClose_some,
          get_pt, ha.smooth, smooth_any pen .cubic]
        rw [Path.append_eq _ _ rfl rfl, ha.cur]
    · refine Path.At.snoc ha rfl rfl ?_
      simp [Path.smoothPoint, step, smooth_after, reflected]
  | arc rel rx ry rot large sweep e =>
    obtain ⟨u, a1, a2⟩ := ArgText.number (inl := none) h
    obtain ⟨u, b1, b2⟩ := ArgText.number (inl := none) a2
    obtain ⟨u, c1, c2⟩ := ArgText.number (inl := none) b2
    obtain ⟨u, d1, d2⟩ := ArgText.flag (inl := none) c2
    obtain ⟨u, e1, e2⟩ := ArgText.flag (inl := none) d2
    obtain ⟨l, q, t, h1, h2, h3, h4⟩ := readEnd ha (rel := rel) e2 hz
    refine ⟨_, body_eq ha (as := [.num (some rx), .num (some ry), .num (some rot), .flag (some large),
      .flag (some sweep), .coord q]) (l := l) ?_ ?_, h2, ?_⟩
    · cases rel <;>
      exact readArgs_cons (readNum a1) (readArgs_cons (readNum b1) (readArgs_cons
        (readNum c1) (readArgs_cons (readFlag d1) (readArgs_cons (readFlag e1)
        (readArgs_cons h1 readArgs_nil)))))
    · cases rel <;>
      · simp [finish, Path.arc, Cmd.letter, h3, h4, bind_ok, ha.cur, hmk, step]
        rw [Path.append_eq _ _ ha.cur.symm rfl]
    · exact Path.At.snoc ha rfl rfl rfl
  | close rel => exact absurd trivial hc

end Svgio.Lexer
