import Verif.Lemmas.PathGood
import Verif.Lemmas.PathFuel
import Verif.Props.PathText

/-!
C35, C36, C40, C41: parsing of arbitrary text.
-/

namespace Svgio.Props
open Spec Lexer

variable {K : Type} [Field K] [LinearOrder K]
variable {rd : List Char → K} {mk : Path.ArcCtor K}

/-! ### C35 -/

/-- **C35**: for every text and every path it is added to, the parser's loops end: with an iteration
limit of one more than the length of the text, the limit is never reached, and no larger limit changes
the outcome. (`ArcFuel`: the arc constructor does not itself report the limit.) -/
theorem C35_parse_terminates (hmk : ArcFuel mk) (p : List (Seg K)) (text : List Char) :
    (parse rd mk p text).2 ≠ some .outOfFuel ∧
    ∀ n, text.length < n → mainLoop rd mk n ⟨p, ⟨text, none⟩⟩ = parse rd mk p text := by
  refine ⟨mainLoop_fuel hmk _ _ (by simp [fuelOf]), ?_⟩
  have key : ∀ (m n : ℕ) (st : St K), st.lx.rest.length < n → n ≤ m →
      mainLoop rd mk m st = mainLoop rd mk n st := by
    intro m
    induction m with
    | zero => intro n st h1 h2; omega
    | succ m ih =>
      intro n st h1 h2
      obtain ⟨n, rfl⟩ : ∃ k, n = k + 1 := ⟨n - 1, by omega⟩
      unfold mainLoop
      split
      · rfl
      · rename_i c l hc
        have h3 := command_some hc
        have h4 := exec_le (rd := rd) (mk := mk) c ⟨st.path, l⟩
        simp only at h4
        unfold Res.andThen
        split
        · rfl
        · exact ih n _ (by omega) (by omega)
  intro n hn
  exact key n _ _ (by simp [fuelOf]) (by simp [fuelOf]; omega)

/-- each pass of an argument loop that does not raise consumes input -/
theorem C35_body_consumes (c : Char) (p : List (Seg K)) (l : Lx) (h : (more l).1 = true)
    (hok : (body rd mk c ⟨p, (more l).2⟩).2 = none) :
    (body rd mk c ⟨p, (more l).2⟩).1.lx.rest.length < l.rest.length := body_lt c p l h hok

example : ArcFuel dummyArc := by intro a b c d e f g; simp [dummyArc]
example : (parse floatVal dummyArc [] "M1,1 2,2 3,3 x".toList).2 = none := by decide +kernel

/-! ### C36 -/

variable [IsStrictOrderedRing K]

/-- the first token of the text is a moveto letter -/
def StartsWithMove (text : List Char) : Prop :=
  ∃ w c r, text = w ++ c :: r ∧ AllSep w ∧ (c = 'm' ∨ c = 'M')

theorem good_first_move {R S : Pt K → Pt K → Prop} [Std.Refl R] [Std.Refl S] {c : Char} (hc : c = 'm' ∨ c = 'M') {l : Lx} {f : St K → Res K}
    (hf : ∀ st : St K, Good R S st.path → Good R S (f st).1.path) :
    (Res.andThen (exec rd mk c ⟨[], l⟩) f).1.path = [] ∨ Good R S (Res.andThen (exec rd mk c ⟨[], l⟩) f).1.path := by
  have hb : ∀ l, (body rd mk c ⟨([] : List (Seg K)), l⟩).1.path = [] ∧ (body rd mk c ⟨([] : List (Seg K)), l⟩).2 ≠ none ∨
      Good R S (body rd mk c ⟨([] : List (Seg K)), l⟩).1.path := by
    intro l
    unfold body
    split
    · left; simp
    · rename_i as l' has
      cases hfin : finish mk c l'.inl ([] : List (Seg K)) as with
      | error e => left; simp
      | ok p' =>
        right
        have hspec : argSpec c = [.rcoord] ∨ argSpec c = [.coord] := by
          rcases hc with rfl | rfl <;> simp [argSpec]
        have has' : ∃ q, as = [.coord q] := by
          have hlen : ∀ k, k = ArgKind.rcoord ∨ k = .coord →
              readArgs rd (Path.currentPoint ([] : List (Seg K))) [k] l = (.ok as, l') → ∃ q, as = [.coord q] := by
            intro k hk h
            unfold readArgs at h
            split at h
            · simp at h
            · rename_i a l1 ha
              simp [readArgs] at h
              rw [← h.1]
              rcases hk with rfl | rfl
              · simp only [readArg, Prod.mk.injEq] at ha
                have ha := ha.1
                cases hr : (rcoord rd (Path.currentPoint ([] : List (Seg K))) l).1 with
                | error e => rw [hr] at ha; simp [Except.map] at ha
                | ok v => rw [hr] at ha; simp [Except.map] at ha; exact ⟨v, by rw [ha]⟩
              · simp only [readArg, Prod.mk.injEq] at ha
                have ha := ha.1
                cases hr : (coord rd l).1 with
                | error e => rw [hr] at ha; simp [Except.map] at ha
                | ok v => rw [hr] at ha; simp [Except.map] at ha; exact ⟨v, by rw [ha]⟩
          rcases hspec with hs | hs <;> rw [hs] at has
          · exact hlen _ (Or.inl rfl) has
          · exact hlen _ (Or.inr rfl) has
        obtain ⟨q, rfl⟩ := has'
        simp only [finish, if_pos hc] at hfin
        cases q with
        | none => simp at hfin
        | some q =>
          simp only [Except.ok.injEq] at hfin
          rw [← hfin]
          have : Path.move ([] : List (Seg K)) (.pt q) (decide (c = 'm')) =
              [⟨.move, none, some q, decide (c = 'm'), true⟩] := by
            unfold Path.move
            rw [Path.append_eq _ _ rfl rfl]
            rfl
          rw [this]
          exact ⟨by simp, by intro s hs; simp at hs; subst hs; simp, Connected.single (by simp)⟩
  unfold exec
  rw [if_neg (by rcases hc with rfl | rfl <;> decide), if_pos hc]
  simp only
  by_cases hm : (more l).1 = true
  · rw [if_pos hm]
    rcases hb (more l).2 with ⟨h1, h2⟩ | h
    · left
      cases he : (body rd mk c ⟨([] : List (Seg K)), (more l).2⟩).2 with
      | none => exact absurd he h2
      | some e => simp [Res.andThen, he, h1]
    · right
      exact good_andThen (good_andThen h (fun st h => good_whileMore _ _ _ h)) hf
  · rw [if_neg hm]
    left
    simp [Res.andThen]

theorem good_parse {R S : Pt K → Pt K → Prop} [Std.Refl R] [Std.Refl S] {p : List (Seg K)} {text : List Char}
    (h : Good R S p ∨ (p = [] ∧ StartsWithMove text)) :
    (parse rd mk p text).1.path = [] ∨ Good R S (parse rd mk p text).1.path := by
  rcases h with h | ⟨rfl, w, c, r, rfl, hw, hc⟩
  · exact Or.inr (good_mainLoop _ _ h)
  · unfold parse fuelOf
    simp only [mainLoop]
    have hcmd : command ⟨w ++ c :: r, none⟩ = (some c, ⟨r, none⟩) :=
      command_letter hw (by rcases hc with rfl | rfl <;> (unfold IsSep; decide)) (by rcases hc with rfl | rfl <;> decide)
    rw [hcmd]
    exact good_first_move hc (fun st h => good_mainLoop _ _ h)

/-- **C36**: after parsing any text into an exactly connected, non-empty path whose segments have ends,
or any text that starts with a moveto into an empty path, the path is exactly connected, every segment
has an end and every close ends at its subpath's start - also when parsing stopped with an error.
Partial: (1) a text that does not start with a moveto, parsed into an empty path, is excluded, see
`C36_close_first_not_connected`; (2) an `H` without a number makes the code go on with a point that has
no x coordinate, where the model stops with `noneCoord`: the theorem then speaks about the path up to
there. -/
theorem C36_connected_partial {p : List (Seg K)} {text : List Char}
    (h : Good Eq Eq p ∨ (p = [] ∧ StartsWithMove text)) :
    Connected Eq (parse rd mk p text).1.path ∧ HasEnds (parse rd mk p text).1.path := by
  rcases good_parse (rd := rd) (mk := mk) h with hs | hs
  · rw [hs]; exact ⟨Connected.nil, by intro s h; simp at h⟩
  · exact ⟨hs.conn, hs.ends⟩

/-- Two closes parsed into an empty path are not connected: neither has points. -/
theorem C36_close_first_not_connected :
    ¬ Connected Eq (parse floatVal dummyArc [] "zz".toList).1.path := by
  intro h
  have h1 := h.1 0 ⟨.close, none, none, true, true⟩ ⟨.close, none, none, true, true⟩
    (by decide +kernel) (by decide +kernel)
  simp at h1

example : StartsWithMove " m1,1L2,2zx".toList := ⟨[' '], 'm', "1,1L2,2zx".toList, rfl, by simp [AllSep, IsSep], by simp⟩
example : Good Eq Eq (parse floatVal dummyArc [] "M1,1L2,2z".toList).1.path := by
  have h := C36_connected_partial (rd := floatVal) (mk := dummyArc) (p := []) (text := "M1,1L2,2z".toList)
    (Or.inr ⟨rfl, [], 'M', _, rfl, by simp [AllSep], by simp⟩)
  exact ⟨by decide +kernel, h.2, h.1⟩

/-! ### C41 -/

/-- **C41**: in the path obtained from any text (as in C36: started by a moveto, or added to a good
path), every close ends exactly at the start of its subpath - the target of the latest move before it -
and the segment after a close starts exactly there. -/
theorem C41_close_returns {p : List (Seg K)} {text : List Char}
    (h : Good Eq Eq p ∨ (p = [] ∧ StartsWithMove text)) {i : ℕ} {s : Seg K}
    (hs : (parse rd mk p text).1.path[i]? = some s) (hc : s.kind = .close) :
    ∃ q, SubpathStart (parse rd mk p text).1.path i q ∧ s.stop = some q ∧
      ∀ s', (parse rd mk p text).1.path[i + 1]? = some s' → s'.start = some q := by
  have hp := (C36_connected_partial (rd := rd) (mk := mk) h).1
  obtain ⟨q, u, h1, h2, rfl⟩ := hp.2 i s hs hc
  refine ⟨q, h1, h2, ?_⟩
  intro s' hs'
  obtain ⟨u, v, h3, h4, rfl⟩ := hp.1 i s s' hs hs'
  rw [h2] at h3
  cases h3
  exact h4

/-- **C41**, the command itself: with nothing but separators after it, `z` adds exactly one segment, a
close from the current point to the start of the current subpath. -/
theorem C41_z_adds_close {p : List (Seg K)} (hp : Good Eq Eq p) {w w' : List Char} (hw : AllSep w) (hw' : AllSep w')
    {c : Char} (hc : c = 'z' ∨ c = 'Z') :
    ∃ u q, p.getLast?.bind Seg.stop = some u ∧ SubpathStart p p.length q ∧
      parse rd mk p (w ++ c :: w') = (⟨p ++ [⟨.close, some u, some q, decide (c = 'z'), true⟩], ⟨[], none⟩⟩, none) := by
  obtain ⟨u, hu⟩ := hp.cur
  obtain ⟨q, hq⟩ := zPoint_some hp.ne hp.ends
  refine ⟨u, q, ?_, subpathStart_zPoint hp.ends hq, ?_⟩
  · unfold Path.currentPoint at hu
    split at hu
    · simp at hu
    · rename_i hl; rw [hl]; simpa using hu
  have hz : isZ c = true := isZ_iff.mpr hc
  have hcmd : command ⟨w ++ c :: w', none⟩ = (some c, ⟨w', none⟩) :=
    command_letter hw (by rcases hc with rfl | rfl <;> (unfold IsSep; decide)) (by rcases hc with rfl | rfl <;> decide)
  have hmore : more ⟨w', none⟩ = (false, ⟨[], none⟩) := by
    unfold more; simp [skip_allSep hw', matchFloat_nil]
  have hcl : Path.closed p (decide (c = 'z')) = p ++ [⟨.close, some u, some q, decide (c = 'z'), true⟩] := by
    unfold Path.closed Path.append
    rw [Path.validateConnection_append _ _ rfl, hu, hq]
    simp only [Seg.isClose, if_true]
    unfold Path.validateClose
    rw [closeTarget_eq rfl hp.ne hp.ends, hq]
    simp
  obtain ⟨n, hn⟩ : ∃ n, (w ++ c :: w').length = n + 1 := ⟨w.length + w'.length, by simp; omega⟩
  unfold parse fuelOf
  simp only [hn, mainLoop, hcmd, exec, if_pos hz, hmore, Bool.false_eq_true, if_false, Res.andThen, hcl]
  simp [command, skip]

/-! ### C40 -/

/-- **C40**, T: on a path whose last segment ends at `q`, `smooth_quad` adds a quadratic curve from `q`
whose control point is the reflection of the last control point if that segment is a quadratic curve,
and `q` itself if it is a move, line, close or arc.
Partial: after a cubic curve the code does not use `q`, see `C40_mixed_wrong`. -/
theorem C40_smooth_quad_partial {p : List (Seg K)} {s : Seg K} {q : Pt K} (hs : p.getLast? = some s)
    (hq : s.stop = some q) (t : Path.Target K) (rel : Bool) :
    (∀ c, s.kind = .quad (some c) → Path.smoothQuad p t rel =
      .ok (p ++ [⟨.quad (some ⟨2 * q.x - c.x, 2 * q.y - c.y⟩), some q, t.get p, rel, true⟩])) ∧
    (s.kind = .move ∨ s.kind = .line ∨ s.kind = .close ∨ (∃ a, s.kind = .arc a) → Path.smoothQuad p t rel =
      .ok (p ++ [⟨.quad (some q), some q, t.get p, rel, true⟩])) := by
  have hcur : Path.currentPoint p = some q := by unfold Path.currentPoint; rw [hs]; exact hq
  constructor
  · intro c hc
    have : Path.smoothPoint p = .ok (some ⟨2 * q.x - c.x, 2 * q.y - c.y⟩) := by
      unfold Path.smoothPoint; simp only [hs, hc, hq, reflected]
    unfold Path.smoothQuad
    rw [this]
    simp only
    rw [Path.append_eq _ _ rfl rfl, hcur]
  · intro hk
    have : Path.smoothPoint p = .ok (some q) := by
      unfold Path.smoothPoint
      simp only [hs]
      rcases hk with hk | hk | hk | ⟨a, hk⟩ <;> rw [hk] <;> simp only [hq]
    unfold Path.smoothQuad
    rw [this]
    simp only
    rw [Path.append_eq _ _ rfl rfl, hcur]

/-- **C40**, S: likewise for `smooth_cubic` after a cubic curve, and after a move, line, close or arc.
Partial: as above, after a quadratic curve. -/
theorem C40_smooth_cubic_partial {p : List (Seg K)} {s : Seg K} {q : Pt K} (hs : p.getLast? = some s)
    (hq : s.stop = some q) (c2 : Pt K) (t : Path.Target K) (rel : Bool) :
    (∀ c1 c, s.kind = .cubic c1 (some c) → Path.smoothCubic p (.pt c2) t rel =
      .ok (p ++ [⟨.cubic (some ⟨2 * q.x - c.x, 2 * q.y - c.y⟩) (some c2), some q, t.get p, rel, true⟩])) ∧
    (s.kind = .move ∨ s.kind = .line ∨ s.kind = .close ∨ (∃ a, s.kind = .arc a) → Path.smoothCubic p (.pt c2) t rel =
      .ok (p ++ [⟨.cubic (some q) (some c2), some q, t.get p, rel, true⟩])) := by
  have hcur : Path.currentPoint p = some q := by unfold Path.currentPoint; rw [hs]; exact hq
  constructor
  · intro c1 c hc
    have : Path.smoothPoint p = .ok (some ⟨2 * q.x - c.x, 2 * q.y - c.y⟩) := by
      unfold Path.smoothPoint; simp only [hs, hc, hq, reflected]
    unfold Path.smoothCubic
    rw [this]
    simp only [Path.mkCubic, Path.Target.get]
    rw [Path.append_eq _ _ rfl rfl, hcur]
  · intro hk
    have : Path.smoothPoint p = .ok (some q) := by
      unfold Path.smoothPoint
      simp only [hs]
      rcases hk with hk | hk | hk | ⟨a, hk⟩ <;> rw [hk] <;> simp only [hq]
    unfold Path.smoothCubic
    rw [this]
    simp only [Path.mkCubic, Path.Target.get]
    rw [Path.append_eq _ _ rfl rfl, hcur]

/-- The code reflects the control point of a cubic curve for a following `T`, and that of a quadratic
curve for a following `S`; SVG uses the current point. -/
theorem C40_mixed_wrong :
    ((parse floatVal dummyArc [] "M0,0C0,1 1,1 1,0T2,0".toList).1.path.map Seg.kind)[2]? =
      some (.quad (some ⟨1, -1⟩)) ∧
    ((parse floatVal dummyArc [] "M0,0Q1,1 2,0S3,3 4,0".toList).1.path.map Seg.kind)[2]? =
      some (.cubic (some ⟨3, -1⟩) (some ⟨3, 3⟩)) ∧
    ((meaning (fun a _ _ _ _ _ _ => ⟨a, a, a, 0⟩) false
      [.move false ⟨0, 0⟩, .cubic false ⟨0, 1⟩ ⟨1, 1⟩ (.pt ⟨1, 0⟩), .smoothQuad false (.pt (⟨2, 0⟩ : Pt ℚ))]).map
        Seg.kind)[2]? = some (.quad (some ⟨1, 0⟩)) := by
  refine ⟨by decide +kernel, by decide +kernel, by decide +kernel⟩

example : (parse floatVal dummyArc [] "M0,0Q1,1 2,0".toList).1.path.getLast? =
    some ⟨.quad (some ⟨1, 1⟩), some ⟨0, 0⟩, some ⟨2, 0⟩, false, false⟩ := by decide +kernel

end Svgio.Props
