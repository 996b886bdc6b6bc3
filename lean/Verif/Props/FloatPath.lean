import Verif.Model.FloatPath
import Verif.Spec.Drift
import Verif.Props.FloatEnds
import Verif.Props.PathText
import Verif.Lemmas.PathGood

/-!
C156: path data read with floats.
-/

namespace Svgio.Props
open Spec Lexer

/-- How far the points of a path may be off, the end points of the n-th segment by `E n` and its control points by `G n`, so that no step of
reading path data takes them further: reading a number, adding an offset to the current point, reflecting a control point. -/
structure Drift (F : FloatRounding) (M : ℚ) (E G : ℕ → ℚ) (N : ℕ) (rel smooth : Prop) : Prop where
  monoE : ∀ i, E i ≤ E (i + 1)
  monoG : ∀ i, G i ≤ G (i + 1)
  le : ∀ i, E i ≤ G i
  read : ∀ x, |x| ≤ M → |F.fl x - x| ≤ E 1
  nonneg : 0 ≤ M
  add : rel → ∀ n < N, ∀ a c c' : ℚ, |c| ≤ M → |a + c| ≤ M → |c' - c| ≤ E n → |F.fl (F.fl a + c') - (a + c)| ≤ E (n + 1)
  reflect : smooth → ∀ n < N, ∀ p p' c c' : ℚ, |p| ≤ M → |c| ≤ M → |p + (p - c)| ≤ M → |p' - p| ≤ E n → |c' - c| ≤ G n →
    |F.fl (p' + F.fl (p' - c')) - (p + (p - c))| ≤ G (n + 1)

/-- a segment within `M`, written as a relative command or a smooth one only if that is allowed -/
structure Fine (M : ℚ) (rel smooth : Prop) (s : Seg ℚ) : Prop where
  inside : SegIn M s
  rel : s.relative = true → s.isClose = false → rel
  smooth : IsSmooth s → smooth

variable {F : FloatRounding} {M : ℚ} {E G : ℕ → ℚ} {N : ℕ} {rel smooth : Prop}

namespace FloatPath

theorem optMono {e f : ℚ} (h : e ≤ f) : ∀ {p' p : Option (Pt ℚ)}, OptNear e p' p → OptNear f p' p
  | none, none, _ => trivial
  | some _, some _, hp => ⟨hp.1.trans h, hp.2.trans h⟩

theorem optSelf {e : ℚ} (h : 0 ≤ e) : ∀ (p : Option (Pt ℚ)), OptNear e p p
  | none => trivial
  | some p => by simp [OptNear, PtNear, h]

theorem kindMono {e f : ℚ} (h : e ≤ f) : ∀ {k' k : Kind ℚ}, KindNear e k' k → KindNear f k' k
  | .move, .move, _ => trivial
  | .close, .close, _ => trivial
  | .line, .line, _ => trivial
  | .quad _, .quad _, hk => optMono h hk
  | .cubic _ _, .cubic _ _, hk => ⟨optMono h hk.1, optMono h hk.2⟩
  | .arc _, .arc _, _ => trivial

theorem segMono {e e' f f' : ℚ} (he : e ≤ e') (hf : f ≤ f') {s' s : Seg ℚ} (h : SegNear e f s' s) : SegNear e' f' s' s :=
  ⟨kindMono hf h.kind, optMono he h.start, optMono he h.stop, h.relative, h.smooth⟩

theorem segSelf {e f : ℚ} (he : 0 ≤ e) (hf : 0 ≤ f) (s : Seg ℚ) : SegNear e f s s where
  kind := by
    cases hk : s.kind <;> simp only [KindNear]
    · exact optSelf hf _
    · exact ⟨optSelf hf _, optSelf hf _⟩
  start := optSelf he _
  stop := optSelf he _
  relative := rfl
  smooth := rfl

variable (D : Drift F M E G N rel smooth)
include D

theorem E_le {i j : ℕ} (h : i ≤ j) : E i ≤ E j := monotone_nat_of_le_succ D.monoE h
theorem G_le {i j : ℕ} (h : i ≤ j) : G i ≤ G j := monotone_nat_of_le_succ D.monoG h

theorem E_pos (i : ℕ) : 0 ≤ E (i + 1) :=
  le_trans (le_trans (abs_nonneg _) (D.read 0 (by simpa using D.nonneg))) (E_le D (by omega))

theorem near_self (p : List (Seg ℚ)) : PathNear E G p p := by
  refine ⟨rfl, fun i s' s h' h => ?_⟩
  rw [h', Option.some.injEq] at h
  subst h
  exact segSelf (E_pos D i) ((E_pos D i).trans (D.le _)) s'

/-- points looked up in near paths are near -/
theorem lookup {p' p : List (Seg ℚ)} (h : PathNear E G p' p) {n : ℕ} (hn : p.length ≤ n) :
    List.Forall₂ (fun s' s => SegNear (E n) (G n) s' s) p' p := by
  rw [List.forall₂_iff_get]
  refine ⟨h.1, fun i h1 h2 => ?_⟩
  have := h.2 i p'[i] p[i] (by simp) (by simp)
  have he : E (i + 1) ≤ E n := E_le D (by omega)
  have hg : G (i + 1) ≤ G n := G_le D (by omega)
  exact segMono he hg this

omit D in
theorem isMove_near {e f : ℚ} {s' s : Seg ℚ} (h : SegNear e f s' s) : s'.isMove = s.isMove := by
  have := h.kind
  unfold Seg.isMove
  revert this
  cases s'.kind <;> cases s.kind <;> simp [KindNear]

omit D in
theorem isClose_near {f : ℚ} {s' s : Seg ℚ} (h : KindNear f s'.kind s.kind) : s'.isClose = s.isClose := by
  unfold Seg.isClose
  revert h
  cases s'.kind <;> cases s.kind <;> simp [KindNear]

omit D in
theorem find_near {e f : ℚ} : ∀ {p' p : List (Seg ℚ)}, List.Forall₂ (fun s' s => SegNear e f s' s) p' p →
    (p'.find? Seg.isMove = none ∧ p.find? Seg.isMove = none) ∨
    ∃ s' s, p'.find? Seg.isMove = some s' ∧ p.find? Seg.isMove = some s ∧ SegNear e f s' s
  | _, _, .nil => .inl ⟨rfl, rfl⟩
  | s' :: p', s :: p, .cons h hs => by
    have hm := isMove_near h
    cases hc : s.isMove with
    | true =>
      rw [hc] at hm
      exact .inr ⟨s', s, by simp [hm], by simp [hc], h⟩
    | false =>
      rw [hc] at hm
      simpa [List.find?_cons, hm, hc] using find_near hs

omit D in
theorem head_near {e f : ℚ} : ∀ {p' p : List (Seg ℚ)}, List.Forall₂ (fun s' s => SegNear e f s' s) p' p →
    (p'.head? = none ∧ p.head? = none) ∨ ∃ s' s, p'.head? = some s' ∧ p.head? = some s ∧ SegNear e f s' s
  | _, _, .nil => .inl ⟨rfl, rfl⟩
  | s' :: p', s :: p, .cons h hs => .inr ⟨s', s, rfl, rfl, h⟩

omit D in
theorem last_near {e f : ℚ} {p' p : List (Seg ℚ)} (h : List.Forall₂ (fun s' s => SegNear e f s' s) p' p) :
    (p'.getLast? = none ∧ p.getLast? = none) ∨ ∃ s' s, p'.getLast? = some s' ∧ p.getLast? = some s ∧ SegNear e f s' s := by
  have := head_near (List.rel_reverse h)
  simpa [List.head?_reverse] using this

theorem current_near {p' p : List (Seg ℚ)} (h : PathNear E G p' p) :
    OptNear (E p.length) (Path.currentPoint p') (Path.currentPoint p) := by
  unfold Path.currentPoint
  rcases last_near (lookup D h le_rfl) with ⟨h1, h2⟩ | ⟨s', s, h1, h2, h3⟩
  · rw [h1, h2]; trivial
  · rw [h1, h2]; exact h3.stop

theorem z_near {p' p : List (Seg ℚ)} (h : PathNear E G p' p) :
    OptNear (E p.length) (Path.zPoint p') (Path.zPoint p) := by
  unfold Path.zPoint
  have hl := lookup D h le_rfl
  have key := head_near hl
  rcases find_near (List.rel_reverse hl) with ⟨h1, h2⟩ | ⟨s', s, h1, h2, h3⟩
  · rw [h1, h2]
    rcases key with ⟨g1, g2⟩ | ⟨_, _, g1, g2, g3⟩ <;> rw [g1, g2]
    · trivial
    · exact g3.stop
  · rw [h1, h2]
    have hs := h3.stop
    revert hs
    simp only [Option.bind_some]
    cases s'.stop <;> cases s.stop <;> intro hs
    · rcases key with ⟨g1, g2⟩ | ⟨_, _, g1, g2, g3⟩ <;> rw [g1, g2]
      · trivial
      · exact g3.stop
    · exact hs.elim
    · exact hs.elim
    · exact hs

theorem closeTarget_near {p' p : List (Seg ℚ)} (h : PathNear E G p' p) {e f : ℚ} {s' s : Seg ℚ} (hs : SegNear e f s' s) {n : ℕ}
    (hn : p.length ≤ n) (he : e ≤ E n) (hf : f ≤ G n) :
    OptNear (E n) (Path.closeTarget (p' ++ [s']) p'.length) (Path.closeTarget (p ++ [s]) p.length) := by
  have hs' : SegNear (E n) (G n) s' s := segMono he hf hs
  have hl : List.Forall₂ (fun s' s => SegNear (E n) (G n) s' s) (p' ++ [s']) (p ++ [s]) :=
    List.rel_append (lookup D h hn) (.cons hs' .nil)
  unfold Path.closeTarget
  rw [show p'.length + 1 = (p' ++ [s']).length by simp, show p.length + 1 = (p ++ [s]).length by simp, List.take_length, List.take_length]
  rcases find_near (List.rel_reverse hl) with ⟨h1, h2⟩ | ⟨a', a, h1, h2, h3⟩
  · rw [h1, h2]
    rcases head_near hl with ⟨h1, h2⟩ | ⟨s', s, h1, h2, h3⟩
    · rw [h1, h2]; trivial
    · rw [h1, h2]; exact h3.stop
  · rw [h1, h2]; exact h3.stop

omit D in
theorem snoc_near {p' p : List (Seg ℚ)} (h : PathNear E G p' p) {s' s : Seg ℚ}
    (hs : SegNear (E (p.length + 1)) (G (p.length + 1)) s' s) : PathNear E G (p' ++ [s']) (p ++ [s]) := by
  refine ⟨by simp [h.1], fun i a' a h' ha => ?_⟩
  rcases lt_trichotomy i p.length with hi | hi | hi
  · rw [List.getElem?_append_left (by rw [h.1]; exact hi)] at h'
    rw [List.getElem?_append_left hi] at ha
    exact h.2 i a' a h' ha
  · subst hi
    rw [List.getElem?_append_right (by rw [h.1]), h.1] at h'
    simp at h' ha
    subst h' ha
    exact hs
  · rw [List.getElem?_append_right (by omega)] at ha
    rw [List.getElem?_eq_none (by simp; omega)] at ha
    cases ha

omit D in
theorem append_close (p : List (Seg ℚ)) (s : Seg ℚ) (h : s.start = Path.currentPoint p) (hc : s.isClose = true) :
    Path.append p s = p ++ [{ s with stop := Path.closeTarget (p ++ [s]) p.length }] := by
  unfold Path.append
  rw [Path.validateConnection_append p s h]
  simp [hc, Path.validateClose]

omit D in
theorem append_grows (p : List (Seg ℚ)) (s : Seg ℚ) (h : s.start = Path.currentPoint p) :
    ∃ t, Path.append p s = p ++ [t] := by
  cases hc : s.isClose with
  | false => exact ⟨s, Path.append_eq p s h hc⟩
  | true => exact ⟨_, append_close p s h hc⟩

theorem append_near {p' p : List (Seg ℚ)} (h : PathNear E G p' p) {s' s : Seg ℚ} (hs' : s'.start = Path.currentPoint p')
    (hs : s.start = Path.currentPoint p) (hk : KindNear (G (p.length + 1)) s'.kind s.kind)
    (he : OptNear (E (p.length + 1)) s'.stop s.stop) (hr : s'.relative = s.relative) (hm : s'.smooth = s.smooth) :
    PathNear E G (Path.append p' s') (Path.append p s) := by
  have hst : OptNear (E (p.length + 1)) s'.start s.start := by
    rw [hs', hs]
    exact optMono (D.monoE _) (current_near D h)
  have hn : SegNear (E (p.length + 1)) (G (p.length + 1)) s' s := ⟨hk, hst, he, hr, hm⟩
  have hc := isClose_near hk
  cases hcs : s.isClose with
  | false =>
    rw [hcs] at hc
    rw [Path.append_eq _ _ hs' hc, Path.append_eq _ _ hs hcs]
    exact snoc_near h hn
  | true =>
    rw [hcs] at hc
    rw [append_close _ _ hs' hc, append_close _ _ hs hcs]
    refine snoc_near h ⟨hk, hst, ?_, hr, hm⟩
    exact closeTarget_near D h hn (by omega) le_rfl le_rfl

/-- a path within `M` of at most `N` segments -/
def OkPath (M : ℚ) (rel smooth : Prop) (N : ℕ) (p : List (Seg ℚ)) : Prop := p.length ≤ N ∧ ∀ s ∈ p, Fine M rel smooth s

omit D in
theorem OkPath.of_prefix {p q : List (Seg ℚ)} (h : OkPath M rel smooth N q) (hp : p <+: q) : OkPath M rel smooth N p :=
  ⟨hp.length_le.trans h.1, fun s hs => h.2 s (hp.subset hs)⟩

omit D in
theorem append_ok {p : List (Seg ℚ)} {s : Seg ℚ} (hs : s.start = Path.currentPoint p) (hc : s.isClose = false)
    (h : OkPath M rel smooth N (Path.append p s)) : OkPath M rel smooth N p ∧ Fine M rel smooth s ∧ p.length < N := by
  rw [Path.append_eq p s hs hc] at h
  refine ⟨h.of_prefix (List.prefix_append _ _), h.2 s (by simp), ?_⟩
  have := h.1
  simp at this
  omega

omit D in
theorem current_in {p : List (Seg ℚ)} (h : OkPath M rel smooth N p) : PtIn M (Path.currentPoint p) := by
  unfold Path.currentPoint
  cases hl : p.getLast? with
  | none => intro q hq; cases hq
  | some s => exact (h.2 s (List.mem_of_getLast? hl)).inside.2.1

/-- the point read with floats and the exact one: a number read, or, if `r`, an offset from the current points added -/
def CoordRel (F : FloatRounding) (r : Prop) (cur' cur : Option (Pt ℚ)) (q' q : Pt ℚ) : Prop :=
  q' = ⟨F.fl q.x, F.fl q.y⟩ ∨ (r ∧ ∃ c' c, cur' = some c' ∧ cur = some c ∧ ∃ a : Pt ℚ,
    q = ⟨a.x + c.x, a.y + c.y⟩ ∧ q' = ⟨F.fl (F.fl a.x + c'.x), F.fl (F.fl a.y + c'.y)⟩)

def TargetRel (F : FloatRounding) (r : Prop) (cur' cur : Option (Pt ℚ)) : Path.Target ℚ → Path.Target ℚ → Prop
  | .z, .z => True
  | .pt q', .pt q => CoordRel F r cur' cur q' q
  | _, _ => False

omit D in
theorem OptNear.alike {e : ℚ} : ∀ {p' p : Option (Pt ℚ)}, OptNear e p' p → p'.isSome = p.isSome
  | none, none, _ => rfl
  | some _, some _, _ => rfl

theorem target_alike {p' p : List (Seg ℚ)} (h : PathNear E G p' p) {r : Prop} {t' t : Path.Target ℚ} {cur' cur : Option (Pt ℚ)}
    (ht : TargetRel F r cur' cur t' t) : (t'.get p').isSome = (t.get p).isSome := by
  cases t' <;> cases t
  · rfl
  · exact ht.elim
  · exact ht.elim
  · exact OptNear.alike (z_near D h)

theorem target_near {p' p : List (Seg ℚ)} (h : PathNear E G p' p) (hp : OkPath M rel smooth N p) (hn : p.length < N) {r : Prop} (hr : r → rel)
    {t' t : Path.Target ℚ} (ht : TargetRel F r (Path.currentPoint p') (Path.currentPoint p) t' t) (hM : PtIn M (t.get p)) :
    OptNear (E (p.length + 1)) (t'.get p') (t.get p) := by
  cases t' with
  | z => cases t with
    | z => exact optMono (D.monoE _) (z_near D h)
    | pt q => exact ht.elim
  | pt q' => cases t with
    | z => exact ht.elim
    | pt q =>
      obtain ⟨hx, hy⟩ := hM q rfl
      have hE : E 1 ≤ E (p.length + 1) := E_le D (by omega)
      rcases ht with rfl | ⟨hr', c', c, h1, h2, a, rfl, rfl⟩
      · exact ⟨(D.read _ hx).trans hE, (D.read _ hy).trans hE⟩
      · have hc := current_near D h
        rw [h1, h2] at hc
        obtain ⟨cx, cy⟩ := current_in hp c h2
        exact ⟨D.add (hr hr') _ hn _ _ _ cx hx hc.1, D.add (hr hr') _ hn _ _ _ cy hy hc.2⟩

theorem reflected_near {n : ℕ} (hn : n < N) (hsm : smooth) {c' c q' q : Pt ℚ} (hc : PtNear (G n) c' c) (hq : PtNear (E n) q' q)
    (hoM : PtIn M (some c)) (hfM : PtIn M (some q)) (hM : PtIn M (some (c.reflectedAcross q))) :
    PtNear (G (n + 1)) (Flt.reflectedAcross F c' q') (c.reflectedAcross q) := by
  obtain ⟨rx, ry⟩ := hM _ rfl
  obtain ⟨cx, cy⟩ := hoM _ rfl
  obtain ⟨qx, qy⟩ := hfM _ rfl
  exact ⟨D.reflect hsm _ hn _ _ _ _ qx cx rx hq.1 hc.1, D.reflect hsm _ hn _ _ _ _ qy cy ry hq.2 hc.2⟩

theorem smooth_near {p' p : List (Seg ℚ)} (h : PathNear E G p' p) (hp : OkPath M rel smooth N p) :
    (∃ e, Flt.smoothPoint F p' = .error e ∧ Path.smoothPoint p = .error e) ∨
    ∃ c' c, Flt.smoothPoint F p' = .ok c' ∧ Path.smoothPoint p = .ok c ∧ c'.isSome = c.isSome ∧
      (p.length < N → smooth → PtIn M c → OptNear (G (p.length + 1)) c' c) := by
  unfold Flt.smoothPoint Path.smoothPoint
  rcases last_near (lookup D h le_rfl) with ⟨h1, h2⟩ | ⟨s', s, h1, h2, h3⟩
  · rw [h1, h2]
    exact .inr ⟨none, none, rfl, rfl, rfl, fun _ _ _ => trivial⟩
  rw [h1, h2]
  have hf := (hp.2 s (List.mem_of_getLast? h2)).inside
  have hk := h3.kind
  have hst := h3.stop
  clear h1 h2 h3
  obtain ⟨_, f2, f3⟩ := hf
  rcases s' with ⟨k', a', e', r', m'⟩
  rcases s with ⟨k, a, e, r, m⟩
  dsimp only at hk hst f2 f3 ⊢
  have plain : p.length < N → smooth → PtIn M e → OptNear (G (p.length + 1)) e' e :=
    fun _ _ _ => optMono ((D.le _).trans (D.monoG _)) hst
  match k', k, hk, f3 with
  | .move, .move, _, _ => exact .inr ⟨_, _, rfl, rfl, OptNear.alike hst, plain⟩
  | .close, .close, _, _ => exact .inr ⟨_, _, rfl, rfl, OptNear.alike hst, plain⟩
  | .line, .line, _, _ => exact .inr ⟨_, _, rfl, rfl, OptNear.alike hst, plain⟩
  | .arc _, .arc _, _, _ => exact .inr ⟨_, _, rfl, rfl, OptNear.alike hst, plain⟩
  | .quad none, .quad none, _, _ => exact .inl ⟨_, rfl, rfl⟩
  | .quad (some c'), .quad (some c), hk, f3 =>
    match e', e, hst, f2 with
    | none, none, _, _ => exact .inl ⟨_, rfl, rfl⟩
    | some q', some q, hst, f2 => exact .inr ⟨_, _, rfl, rfl, rfl, fun hn hsm hM => reflected_near D hn hsm hk hst f3 f2 hM⟩
  | .cubic _ none, .cubic _ none, _, _ => exact .inl ⟨_, rfl, rfl⟩
  | .cubic _ (some c'), .cubic _ (some c), hk, f3 =>
    match e', e, hst, f2 with
    | none, none, _, _ => exact .inl ⟨_, rfl, rfl⟩
    | some q', some q, hst, f2 => exact .inr ⟨_, _, rfl, rfl, rfl, fun hn hsm hM => reflected_near D hn hsm hk.2 hst f3.2 f2 hM⟩

def OutNear (E G : ℕ → ℚ) : Except PyErr (List (Seg ℚ)) → Except PyErr (List (Seg ℚ)) → Prop
  | .error e', .error e => e' = e
  | .ok q', .ok q => PathNear E G q' q
  | _, _ => False

section builders
variable {p' p : List (Seg ℚ)} (h : PathNear E G p' p) {r : Prop} {b : Bool} (hr : r → b = true)
include h

section
include hr

theorem move_near {t' t : Path.Target ℚ} (ht : TargetRel F r (Path.currentPoint p') (Path.currentPoint p) t' t)
    (hok : OkPath M rel smooth N (Path.move p t b)) : PathNear E G (Path.move p' t' b) (Path.move p t b) := by
  obtain ⟨hp, hf, hn⟩ := append_ok rfl rfl hok
  exact append_near D h rfl rfl trivial (target_near D h hp hn (fun x => hf.rel (hr x) rfl) ht hf.inside.2.1) rfl rfl

theorem line_near {t' t : Path.Target ℚ} (ht : TargetRel F r (Path.currentPoint p') (Path.currentPoint p) t' t)
    (hok : OkPath M rel smooth N (Path.line p t b)) : PathNear E G (Path.line p' t' b) (Path.line p t b) := by
  obtain ⟨hp, hf, hn⟩ := append_ok rfl rfl hok
  exact append_near D h rfl rfl trivial (target_near D h hp hn (fun x => hf.rel (hr x) rfl) ht hf.inside.2.1) rfl rfl

theorem quad_near {c' c t' t : Path.Target ℚ} (hc : TargetRel F r (Path.currentPoint p') (Path.currentPoint p) c' c)
    (ht : TargetRel F r (Path.currentPoint p') (Path.currentPoint p) t' t)
    (hok : OkPath M rel smooth N (Path.quad p c t b)) : PathNear E G (Path.quad p' c' t' b) (Path.quad p c t b) := by
  obtain ⟨hp, hf, hn⟩ := append_ok rfl rfl hok
  have hr' : r → rel := fun x => hf.rel (hr x) rfl
  refine append_near D h rfl rfl ?_ (target_near D h hp hn hr' ht hf.inside.2.1) rfl rfl
  exact optMono (D.le _) (target_near D h hp hn hr' hc hf.inside.2.2)

theorem smoothQuad_near (hp : OkPath M rel smooth N p) {t' t : Path.Target ℚ}
    (ht : TargetRel F r (Path.currentPoint p') (Path.currentPoint p) t' t)
    (hok : ∀ q, Path.smoothQuad p t b = .ok q → OkPath M rel smooth N q) :
    OutNear E G (Flt.smoothQuad F p' t' b) (Path.smoothQuad p t b) := by
  unfold Flt.smoothQuad
  unfold Path.smoothQuad at hok ⊢
  rcases smooth_near D h hp with ⟨e, h1, h2⟩ | ⟨c', c, h1, h2, -, h3⟩
  · rw [h1, h2]; rfl
  · rw [h2] at hok ⊢
    rw [h1]
    obtain ⟨hp, hf, hn⟩ := append_ok rfl rfl (hok _ rfl)
    exact append_near D h rfl rfl (h3 hn (hf.smooth rfl) hf.inside.2.2)
      (target_near D h hp hn (fun x => hf.rel (hr x) rfl) ht hf.inside.2.1) rfl rfl

end

theorem mkCubic_near {c1' c1 c2' c2 e' e : Option (Pt ℚ)} {sm : Bool} (a1 : c1'.isSome = c1.isSome) (a2 : c2'.isSome = c2.isSome)
    (hE : OkPath M rel smooth N p → p.length < N → ∀ k, (⟨k, Path.currentPoint p, e, b, sm⟩ : Seg ℚ).isClose = false →
      Fine M rel smooth ⟨k, Path.currentPoint p, e, b, sm⟩ → OptNear (E (p.length + 1)) e' e)
    (hC : OkPath M rel smooth N p → p.length < N → Fine M rel smooth ⟨.cubic c1 c2, Path.currentPoint p, e, b, sm⟩ →
      OptNear (G (p.length + 1)) c1' c1 ∧ OptNear (G (p.length + 1)) c2' c2)
    (hok : ∀ s, Path.mkCubic (Path.currentPoint p) c1 c2 e b sm = .ok s → OkPath M rel smooth N (Path.append p s)) :
    (∃ x, Path.mkCubic (Path.currentPoint p') c1' c2' e' b sm = .error x ∧ Path.mkCubic (Path.currentPoint p) c1 c2 e b sm = .error x) ∨
    ∃ s' s, Path.mkCubic (Path.currentPoint p') c1' c2' e' b sm = .ok s' ∧ Path.mkCubic (Path.currentPoint p) c1 c2 e b sm = .ok s ∧
      PathNear E G (Path.append p' s') (Path.append p s) := by
  match c1', c1, a1 with
  | none, none, _ =>
    refine .inr ⟨_, _, rfl, rfl, ?_⟩
    obtain ⟨hp, hf, hn⟩ := append_ok rfl rfl (hok _ rfl)
    exact append_near D h rfl rfl ⟨trivial, trivial⟩ (hE hp hn _ rfl hf) rfl rfl
  | some c1', some c1, _ =>
    match c2', c2, a2 with
    | none, none, _ => exact .inl ⟨_, rfl, rfl⟩
    | some c2', some c2, _ =>
      refine .inr ⟨_, _, rfl, rfl, ?_⟩
      obtain ⟨hp, hf, hn⟩ := append_ok rfl rfl (hok _ rfl)
      exact append_near D h rfl rfl (hC hp hn hf) (hE hp hn _ rfl hf) rfl rfl

include hr in
theorem cubic_near {c1' c1 c2' c2 t' t : Path.Target ℚ} (h1 : TargetRel F r (Path.currentPoint p') (Path.currentPoint p) c1' c1)
    (h2 : TargetRel F r (Path.currentPoint p') (Path.currentPoint p) c2' c2)
    (ht : TargetRel F r (Path.currentPoint p') (Path.currentPoint p) t' t)
    (hok : ∀ q, Path.cubic p c1 c2 t b = .ok q → OkPath M rel smooth N q) :
    OutNear E G (Path.cubic p' c1' c2' t' b) (Path.cubic p c1 c2 t b) := by
  unfold Path.cubic at hok ⊢
  rcases mkCubic_near D h (b := b) (sm := false) (target_alike D h h1) (target_alike D h h2)
    (fun hp hn k hk hf => target_near D h hp hn (fun x => hf.rel (hr x) hk) ht hf.inside.2.1)
    (fun hp hn hf => ⟨optMono (D.le _) (target_near D h hp hn (fun x => hf.rel (hr x) rfl) h1 hf.inside.2.2.1),
      optMono (D.le _) (target_near D h hp hn (fun x => hf.rel (hr x) rfl) h2 hf.inside.2.2.2)⟩)
    (fun s hs => hok _ (by rw [hs])) with ⟨x, g1, g2⟩ | ⟨s', s, g1, g2, g3⟩
  · rw [g1, g2]; rfl
  · rw [g1, g2]; exact g3

include hr in
theorem smoothCubic_near (hp : OkPath M rel smooth N p) {c2' c2 t' t : Path.Target ℚ}
    (h2 : TargetRel F r (Path.currentPoint p') (Path.currentPoint p) c2' c2)
    (ht : TargetRel F r (Path.currentPoint p') (Path.currentPoint p) t' t)
    (hok : ∀ q, Path.smoothCubic p c2 t b = .ok q → OkPath M rel smooth N q) :
    OutNear E G (Flt.smoothCubic F p' c2' t' b) (Path.smoothCubic p c2 t b) := by
  unfold Flt.smoothCubic
  unfold Path.smoothCubic at hok ⊢
  rcases smooth_near D h hp with ⟨e, h1, h2⟩ | ⟨c', c, h1, h0, ha, h3⟩
  · rw [h1, h2]; rfl
  rw [h0] at hok ⊢
  rw [h1]
  dsimp only at hok ⊢
  rcases mkCubic_near D h (b := b) (sm := true) ha (target_alike D h h2)
    (fun hp hn k hk hf => target_near D h hp hn (fun x => hf.rel (hr x) hk) ht hf.inside.2.1)
    (fun hp hn hf => ⟨h3 hn (hf.smooth rfl) hf.inside.2.2.1,
      optMono (D.le _) (target_near D h hp hn (fun x => hf.rel (hr x) rfl) h2 hf.inside.2.2.2)⟩)
    (fun s hs => hok _ (by rw [hs])) with ⟨x, g1, g2⟩ | ⟨s', s, g1, g2, g3⟩
  · rw [g1, g2]; rfl
  · rw [g1, g2]; exact g3

theorem horizontal_near {x : Option ℚ} (hok : ∀ q, Path.horizontal p x b = .ok q → OkPath M rel smooth N q) :
    OutNear E G (Flt.horizontal F p' (x.map F.fl) b) (Path.horizontal p x b) := by
  unfold Flt.horizontal
  unfold Path.horizontal at hok ⊢
  have hc := current_near D h
  cases h1 : Path.currentPoint p' with
  | none =>
    cases h2 : Path.currentPoint p with
    | none => rfl
    | some c => rw [h1, h2] at hc; exact hc.elim
  | some c' =>
    cases h2 : Path.currentPoint p with
    | none => rw [h1, h2] at hc; exact hc.elim
    | some c =>
      rw [h1, h2] at hc
      rw [h2] at hok
      cases x with
      | none => cases b <;> rfl
      | some x =>
        obtain ⟨hp, hf, hn⟩ := append_ok h2.symm rfl (hok _ rfl)
        obtain ⟨cx, cy⟩ := current_in hp c h2
        obtain ⟨qx, qy⟩ := hf.inside.2.1 _ rfl
        refine append_near D h h1.symm h2.symm trivial ?_ rfl rfl
        cases b with
        | false => exact ⟨(D.read _ qx).trans (E_le D (by omega)), hc.2.trans (D.monoE _)⟩
        | true =>
          refine ⟨?_, hc.2.trans (D.monoE _)⟩
          have := D.add (hf.rel rfl rfl) _ hn x c.x c'.x cx (by rw [add_comm]; exact qx) hc.1
          simpa [add_comm] using this

theorem vertical_near {y : Option ℚ} (hok : ∀ q, Path.vertical p y b = .ok q → OkPath M rel smooth N q) :
    OutNear E G (Flt.vertical F p' (y.map F.fl) b) (Path.vertical p y b) := by
  unfold Flt.vertical
  unfold Path.vertical at hok ⊢
  have hc := current_near D h
  cases h1 : Path.currentPoint p' with
  | none =>
    cases h2 : Path.currentPoint p with
    | none => rfl
    | some c => rw [h1, h2] at hc; exact hc.elim
  | some c' =>
    cases h2 : Path.currentPoint p with
    | none => rw [h1, h2] at hc; exact hc.elim
    | some c =>
      rw [h1, h2] at hc
      rw [h2] at hok
      cases y with
      | none =>
        cases b with
        | true => rfl
        | false =>
          refine append_near D h h1.symm h2.symm trivial ?_ rfl rfl
          exact ⟨hc.1.trans (D.monoE _), by simpa using E_pos D _⟩
      | some y =>
        obtain ⟨hp, hf, hn⟩ := append_ok h2.symm rfl (hok _ rfl)
        obtain ⟨cx, cy⟩ := current_in hp c h2
        obtain ⟨qx, qy⟩ := hf.inside.2.1 _ rfl
        refine append_near D h h1.symm h2.symm trivial ?_ rfl rfl
        cases b with
        | false => exact ⟨hc.1.trans (D.monoE _), (D.read _ qy).trans (E_le D (by omega))⟩
        | true =>
          refine ⟨hc.1.trans (D.monoE _), ?_⟩
          have := D.add (hf.rel rfl rfl) _ hn y c.y c'.y cy (by rw [add_comm]; exact qy) hc.2
          simpa [add_comm] using this

theorem closed_near : PathNear E G (Path.closed p' b) (Path.closed p b) :=
  append_near D h rfl rfl trivial (optMono (D.monoE _) (z_near D h)) rfl rfl

end builders

end FloatPath

/-- the two constructors of arcs raise the same exceptions, which depend only on which parameters are missing -/
def ArcsAlike (mk' mk : Path.ArcCtor ℚ) : Prop :=
  ∀ a' a b' b rx' rx ry' ry rot' rot l s, Option.isSome rx' = Option.isSome rx → Option.isSome ry' = Option.isSome ry →
    Option.isSome rot' = Option.isSome rot → ∀ e, mk' a' rx' ry' rot' l s b' = .error e ↔ mk a rx ry rot l s b = .error e

namespace FloatPath
variable (D : Drift F M E G N rel smooth) {mk' mk : Path.ArcCtor ℚ} (hmk : ArcsAlike mk' mk)
include D hmk

theorem arc_near {p' p : List (Seg ℚ)} (h : PathNear E G p' p) {r : Prop} {b : Bool} (hr : r → b = true)
    {rx ry rot : Option ℚ} {l s : Option Bool} {t' t : Path.Target ℚ}
    (ht : TargetRel F r (Path.currentPoint p') (Path.currentPoint p) t' t)
    (hok : ∀ q, Path.arc mk p rx ry rot l s t b = .ok q → OkPath M rel smooth N q) :
    OutNear E G (Path.arc mk' p' (rx.map F.fl) (ry.map F.fl) (rot.map F.fl) l s t' b) (Path.arc mk p rx ry rot l s t b) := by
  unfold Path.arc at hok ⊢
  have hc := current_near D h
  have ha := target_alike D h ht
  cases h1 : Path.currentPoint p' with
  | none =>
    cases h2 : Path.currentPoint p with
    | none => rfl
    | some c => rw [h1, h2] at hc; exact hc.elim
  | some c' =>
    cases h2 : Path.currentPoint p with
    | none => rw [h1, h2] at hc; exact hc.elim
    | some c =>
      cases h3 : t'.get p' with
      | none =>
        cases h4 : t.get p with
        | none => rfl
        | some e => rw [h3, h4] at ha; cases ha
      | some e' =>
        cases h4 : t.get p with
        | none => rw [h3, h4] at ha; cases ha
        | some e =>
          rw [h2, h4] at hok
          dsimp only at hok ⊢
          have hm := hmk c' c e' e (rx.map F.fl) rx (ry.map F.fl) ry (rot.map F.fl) rot l s (by simp) (by simp) (by simp)
          cases h5 : mk c rx ry rot l s e with
          | error x => rw [(hm x).2 h5]; rfl
          | ok d =>
            cases h6 : mk' c' (rx.map F.fl) (ry.map F.fl) (rot.map F.fl) l s e' with
            | error x => rw [(hm x).1 h6] at h5; cases h5
            | ok d' =>
              rw [h5] at hok
              obtain ⟨hp, hf, hn⟩ := append_ok h2.symm rfl (hok _ rfl)
              refine append_near D h h1.symm h2.symm trivial ?_ rfl rfl
              rw [← h3, ← h4]
              exact target_near D h hp hn (fun x => hf.rel (hr x) rfl) ht (by rw [h4]; exact hf.inside.2.1)

end FloatPath

namespace FloatPath

/-- an argument of a sort -/
def KindOf : ArgKind → Arg ℚ → Prop
  | .num, .num _ => True
  | .flag, .flag _ => True
  | .coord, .coord _ => True
  | .rcoord, .coord _ => True
  | _, _ => False

/-- what is read with floats and exactly: numbers, flags, points -/
def ArgRel (F : FloatRounding) (r : Prop) (cur' cur : Option (Pt ℚ)) : Arg ℚ → Arg ℚ → Prop
  | .num x', .num x => x' = x.map F.fl
  | .flag b', .flag b => b' = b
  | .coord none, .coord none => True
  | .coord (some q'), .coord (some q) => CoordRel F r cur' cur q' q
  | _, _ => False

theorem number_rel (rd : List Char → ℚ) (l : Lx) :
    number (fun t => F.fl (rd t)) l = ((number rd l).1.map F.fl, (number rd l).2) := by
  unfold number
  dsimp only
  generalize skip l.rest = u
  cases matchFloat u with
  | some tr => rfl
  | none =>
    cases u with
    | nil => rfl
    | cons c r => by_cases h : isZ c = true <;> simp [h]

theorem coord_rel (rd : List Char → ℚ) (l : Lx) :
    coord (fun t => F.fl (rd t)) l = ((coord rd l).1.map (Option.map fun q => ⟨F.fl q.x, F.fl q.y⟩), (coord rd l).2) := by
  unfold coord
  rw [number_rel]
  cases h : number rd l with
  | mk x l1 =>
    cases x with
    | none => rfl
    | some x =>
      dsimp only [Option.map_some]
      rw [number_rel]
      cases number rd l1 with
      | mk y l2 => cases y <;> rfl

theorem readArg_rel (rd : List Char → ℚ) {r : Prop} {cur' cur : Option (Pt ℚ)} (hc : cur'.isSome = cur.isSome) (k : ArgKind)
    (hk : k = .rcoord → r) (l : Lx) :
    (∃ e, Flt.readArg F (fun t => F.fl (rd t)) cur' k l = (.error e, (readArg rd cur k l).2) ∧ (readArg rd cur k l).1 = .error e) ∨
    ∃ a' a, Flt.readArg F (fun t => F.fl (rd t)) cur' k l = (.ok a', (readArg rd cur k l).2) ∧ (readArg rd cur k l).1 = .ok a ∧
      ArgRel F r cur' cur a' a ∧ KindOf k a := by
  cases k with
  | num => exact .inr ⟨.num ((number rd l).1.map F.fl), .num (number rd l).1, by simp only [Flt.readArg, number_rel]; rfl, rfl, rfl, trivial⟩
  | flag => exact .inr ⟨_, _, rfl, rfl, rfl, trivial⟩
  | coord =>
    unfold Flt.readArg readArg
    rw [coord_rel]
    cases h : coord rd l with
    | mk x l1 =>
      match x with
      | .error e => exact .inl ⟨e, rfl, rfl⟩
      | .ok none => exact .inr ⟨_, _, rfl, rfl, trivial, trivial⟩
      | .ok (some q) => exact .inr ⟨_, _, rfl, rfl, .inl rfl, trivial⟩
  | rcoord =>
    unfold Flt.readArg readArg Flt.rcoord rcoord
    rw [coord_rel]
    cases h : coord rd l with
    | mk x l1 =>
      match x with
      | .error e => exact .inl ⟨e, rfl, rfl⟩
      | .ok none => exact .inr ⟨_, _, rfl, rfl, trivial, trivial⟩
      | .ok (some q) =>
        match cur', cur, hc with
        | none, none, _ => exact .inr ⟨_, _, rfl, rfl, .inl rfl, trivial⟩
        | some c', some c, _ => exact .inr ⟨_, _, rfl, rfl, .inr ⟨hk rfl, c', c, rfl, rfl, q, rfl, rfl⟩, trivial⟩

theorem readArgs_rel (rd : List Char → ℚ) {r : Prop} {cur' cur : Option (Pt ℚ)} (hc : cur'.isSome = cur.isSome) :
    ∀ (ks : List ArgKind) (_ : ArgKind.rcoord ∈ ks → r) (l : Lx),
    (∃ e l1, Flt.readArgs F (fun t => F.fl (rd t)) cur' ks l = (.error e, l1) ∧ readArgs rd cur ks l = (.error e, l1)) ∨
    ∃ as' as l1, Flt.readArgs F (fun t => F.fl (rd t)) cur' ks l = (.ok as', l1) ∧ readArgs rd cur ks l = (.ok as, l1) ∧
      List.Forall₂ (ArgRel F r cur' cur) as' as ∧ as.length = ks.length ∧ List.Forall₂ KindOf ks as
  | [], _, l => .inr ⟨_, _, _, rfl, rfl, .nil, rfl, .nil⟩
  | k :: ks, hk, l => by
    unfold Flt.readArgs readArgs
    cases h : readArg rd cur k l with
    | mk x l1 =>
      rcases readArg_rel (F := F) rd hc k (fun e => hk (by simp [e])) l with ⟨e, h1, h2⟩ | ⟨a', a, h1, h2, h3, h4⟩
      · rw [h] at h1 h2
        dsimp only at h2
        subst h2
        rw [h1]
        exact .inl ⟨_, _, rfl, rfl⟩
      · rw [h] at h1 h2
        dsimp only at h2
        subst h2
        rw [h1]
        dsimp only
        rcases readArgs_rel rd hc ks (fun e => hk (by simp [e])) l1 with ⟨e, l2, g1, g2⟩ | ⟨as', as, l2, g1, g2, g3, g4, g5⟩
        · rw [g1, g2]; exact .inl ⟨_, _, rfl, rfl⟩
        · rw [g1, g2]; exact .inr ⟨_, _, _, rfl, rfl, .cons h3 g3, by simp [g4], .cons h4 g5⟩

/-- the letters of relative commands with points -/
def Lower (c : Char) : Prop := c ∈ ['m', 'l', 't', 'c', 'q', 's', 'a']

theorem ite_of {P : List ArgKind → Prop} {c x : Char} {a b : List ArgKind} (ha : c = x → P a) (hb : P b) :
    P (if c = x then a else b) := by
  by_cases h : c = x
  · rw [if_pos h]; exact ha h
  · rw [if_neg h]; exact hb

theorem spec_of (P : List ArgKind → Prop) (c : Char) (h1 : c ∈ ['m', 'l', 't'] → P [.rcoord]) (h2 : P [.coord]) (h3 : P [.num])
    (h4 : c ∈ ['q', 's'] → P [.rcoord, .rcoord]) (h5 : P [.coord, .coord]) (h6 : c = 'c' → P [.rcoord, .rcoord, .rcoord])
    (h7 : P [.coord, .coord, .coord]) (h8 : c = 'a' → P [.num, .num, .num, .flag, .flag, .rcoord])
    (h9 : P [.num, .num, .num, .flag, .flag, .coord]) (h0 : P []) : P (argSpec c) :=
  ite_of (fun h => h1 (by simp [h])) <| ite_of (fun _ => h2) <| ite_of (fun h => h1 (by simp [h])) <| ite_of (fun _ => h2) <|
  ite_of (fun h => h1 (by simp [h])) <| ite_of (fun _ => h2) <| ite_of (fun _ => h3) <| ite_of (fun _ => h3) <| ite_of (fun _ => h3) <|
  ite_of (fun _ => h3) <| ite_of h6 <| ite_of (fun _ => h7) <| ite_of (fun h => h4 (by simp [h])) <| ite_of (fun _ => h5) <|
  ite_of (fun h => h4 (by simp [h])) <| ite_of (fun _ => h5) <| ite_of h8 <| ite_of (fun _ => h9) h0

theorem spec_lower (c : Char) : ArgKind.rcoord ∈ argSpec c → Lower c := by
  refine spec_of (fun l => ArgKind.rcoord ∈ l → Lower c) c (fun h _ => ?_) ?_ ?_ (fun h _ => ?_) ?_ (fun h _ => ?_) ?_ (fun h _ => ?_) ?_ ?_
  · simp only [Lower, List.mem_cons, List.not_mem_nil, or_false] at h ⊢; tauto
  · simp
  · simp
  · simp only [Lower, List.mem_cons, List.not_mem_nil, or_false] at h ⊢; tauto
  · simp
  · simp [Lower, h]
  · simp
  · simp [Lower, h]
  · simp
  · simp

theorem kind_num {a : Arg ℚ} (h : KindOf .num a) : ∃ x, a = .num x := by cases a <;> simp_all [KindOf]
theorem kind_flag {a : Arg ℚ} (h : KindOf .flag a) : ∃ x, a = .flag x := by cases a <;> simp_all [KindOf]
theorem kind_coord {a : Arg ℚ} (h : KindOf .coord a) : ∃ x, a = .coord x := by cases a <;> simp_all [KindOf]
theorem kind_rcoord {a : Arg ℚ} (h : KindOf .rcoord a) : ∃ x, a = .coord x := by cases a <;> simp_all [KindOf]

/-- the arguments of a command -/
inductive Shape : List (Arg ℚ) → Prop
  | none : Shape []
  | num (x) : Shape [.num x]
  | one (q) : Shape [.coord q]
  | two (q1 q2) : Shape [.coord q1, .coord q2]
  | three (q1 q2 q3) : Shape [.coord q1, .coord q2, .coord q3]
  | arc (rx ry rot l s q) : Shape [.num rx, .num ry, .num rot, .flag l, .flag s, .coord q]

theorem shape_of (c : Char) : ∀ as, List.Forall₂ KindOf (argSpec c) as → Shape as := by
  refine spec_of (fun l => ∀ as, List.Forall₂ KindOf l as → Shape as) c ?_ ?_ ?_ ?_ ?_ ?_ ?_ ?_ ?_ ?_
  · rintro - _ (_ | ⟨h1, _ | _⟩); obtain ⟨q, rfl⟩ := kind_rcoord h1; exact .one q
  · rintro _ (_ | ⟨h1, _ | _⟩); obtain ⟨q, rfl⟩ := kind_coord h1; exact .one q
  · rintro _ (_ | ⟨h1, _ | _⟩); obtain ⟨q, rfl⟩ := kind_num h1; exact .num q
  · rintro - _ (_ | ⟨h1, _ | ⟨h2, _ | _⟩⟩); obtain ⟨q, rfl⟩ := kind_rcoord h1; obtain ⟨q2, rfl⟩ := kind_rcoord h2; exact .two q q2
  · rintro _ (_ | ⟨h1, _ | ⟨h2, _ | _⟩⟩); obtain ⟨q, rfl⟩ := kind_coord h1; obtain ⟨q2, rfl⟩ := kind_coord h2; exact .two q q2
  · rintro - _ (_ | ⟨h1, _ | ⟨h2, _ | ⟨h3, _ | _⟩⟩⟩)
    obtain ⟨q, rfl⟩ := kind_rcoord h1; obtain ⟨q2, rfl⟩ := kind_rcoord h2; obtain ⟨q3, rfl⟩ := kind_rcoord h3; exact .three q q2 q3
  · rintro _ (_ | ⟨h1, _ | ⟨h2, _ | ⟨h3, _ | _⟩⟩⟩)
    obtain ⟨q, rfl⟩ := kind_coord h1; obtain ⟨q2, rfl⟩ := kind_coord h2; obtain ⟨q3, rfl⟩ := kind_coord h3; exact .three q q2 q3
  · rintro - _ (_ | ⟨h1, _ | ⟨h2, _ | ⟨h3, _ | ⟨h4, _ | ⟨h5, _ | ⟨h6, _ | _⟩⟩⟩⟩⟩⟩)
    obtain ⟨q, rfl⟩ := kind_num h1; obtain ⟨q2, rfl⟩ := kind_num h2; obtain ⟨q3, rfl⟩ := kind_num h3
    obtain ⟨q4, rfl⟩ := kind_flag h4; obtain ⟨q5, rfl⟩ := kind_flag h5; obtain ⟨q6, rfl⟩ := kind_rcoord h6
    exact .arc ..
  · rintro _ (_ | ⟨h1, _ | ⟨h2, _ | ⟨h3, _ | ⟨h4, _ | ⟨h5, _ | ⟨h6, _ | _⟩⟩⟩⟩⟩⟩)
    obtain ⟨q, rfl⟩ := kind_num h1; obtain ⟨q2, rfl⟩ := kind_num h2; obtain ⟨q3, rfl⟩ := kind_num h3
    obtain ⟨q4, rfl⟩ := kind_flag h4; obtain ⟨q5, rfl⟩ := kind_flag h5; obtain ⟨q6, rfl⟩ := kind_coord h6
    exact .arc ..
  · rintro _ (_ | _); exact .none

theorem orClose_rel {inl : Option Char} {r : Prop} {cur' cur : Option (Pt ℚ)} {q' q : Option (Pt ℚ)}
    (h : ArgRel F r cur' cur (.coord q') (.coord q)) :
    (∃ e, orClose inl q' = .error e ∧ orClose inl q = .error e) ∨
    ∃ t' t, orClose inl q' = .ok t' ∧ orClose inl q = .ok t ∧ TargetRel F r cur' cur t' t := by
  match q', q, h with
  | none, none, _ =>
    cases inl with
    | none => exact .inl ⟨_, rfl, rfl⟩
    | some c => exact .inr ⟨_, _, rfl, rfl, trivial⟩
  | some q', some q, h => exact .inr ⟨_, _, rfl, rfl, h⟩

theorem coord_inv {r : Prop} {cur' cur : Option (Pt ℚ)} {a' : Arg ℚ} {q : Option (Pt ℚ)} (h : ArgRel F r cur' cur a' (.coord q)) :
    ∃ q', a' = .coord q' := by
  match a', q, h with
  | .coord q', _, _ => exact ⟨q', rfl⟩

theorem num_inv {r : Prop} {cur' cur : Option (Pt ℚ)} {a' : Arg ℚ} {x : Option ℚ} (h : ArgRel F r cur' cur a' (.num x)) :
    a' = .num (x.map F.fl) := by
  match a', h with
  | .num x', h => rw [show x' = x.map F.fl from h]

theorem flag_inv {r : Prop} {cur' cur : Option (Pt ℚ)} {a' : Arg ℚ} {x : Option Bool} (h : ArgRel F r cur' cur a' (.flag x)) :
    a' = .flag x := by
  match a', h with
  | .flag x', h => rw [show x' = x from h]

section grows
variable {rd : List Char → ℚ} {mk : Path.ArcCtor ℚ}

theorem append_prefix {p : List (Seg ℚ)} {s : Seg ℚ} (h : s.start = Path.currentPoint p) : p <+: Path.append p s := by
  obtain ⟨t, ht⟩ := append_grows p s h
  rw [ht]
  exact List.prefix_append _ _

theorem closed_grows (p : List (Seg ℚ)) (b : Bool) : p <+: Path.closed p b := by
  unfold Path.closed
  exact append_prefix rfl

theorem finish_grows {p p' : List (Seg ℚ)} {c inl as} (hp : finish mk c inl p as = .ok p') : p <+: p' := by
  unfold finish at hp
  split at hp
  · rename_i q
    split_ifs at hp
    · cases q with
      | none => simp at hp
      | some q =>
        simp only [Except.ok.injEq] at hp
        rw [← hp]
        exact append_prefix rfl
    · obtain ⟨t, h1, h2⟩ := bind_eq_ok hp
      cases h2; exact append_prefix rfl
    · obtain ⟨t, h1, h2⟩ := bind_eq_ok hp
      unfold Path.smoothQuad at h2
      split at h2
      · simp at h2
      · cases h2
        exact append_prefix rfl
  · split_ifs at hp
    · unfold Path.horizontal at hp
      split at hp
      · simp at hp
      · rename_i c hc
        split at hp
        · split_ifs at hp
        · cases hp
          exact append_prefix hc.symm
    · unfold Path.vertical at hp
      split at hp
      · simp at hp
      · rename_i c hc
        split at hp
        · split_ifs at hp
          cases hp
          exact append_prefix hc.symm
        · cases hp
          exact append_prefix hc.symm
  · obtain ⟨t, h1, h2⟩ := bind_eq_ok hp
    obtain ⟨t2, h3, h4⟩ := bind_eq_ok h2
    split_ifs at h4
    · cases h4; exact append_prefix rfl
    · unfold Path.smoothCubic at h4
      split at h4
      · simp at h4
      · split at h4
        · simp at h4
        · rename_i hs
          cases h4
          exact append_prefix (mkCubic_pts hs).1
  · obtain ⟨t, h1, h2⟩ := bind_eq_ok hp
    obtain ⟨t2, h3, h4⟩ := bind_eq_ok h2
    obtain ⟨t3, h5, h6⟩ := bind_eq_ok h4
    unfold Path.cubic at h6
    split at h6
    · simp at h6
    · rename_i hs
      cases h6
      exact append_prefix (mkCubic_pts hs).1
  · split_ifs at hp
    obtain ⟨t, h1, h2⟩ := bind_eq_ok hp
    unfold Path.arc at h2
    split at h2
    · rename_i u v hu hv
      split at h2
      · simp at h2
      · cases h2
        exact append_prefix hu.symm
    · simp at h2
  · simp at hp

theorem body_grows (st : St ℚ) (c) : st.path <+: (body rd mk c st).1.path := by
  unfold body
  split
  · exact List.prefix_rfl
  · split
    · exact List.prefix_rfl
    · rename_i hp
      exact finish_grows hp

theorem andThen_grows {p : List (Seg ℚ)} {r : Res ℚ} {f : St ℚ → Res ℚ} (h : p <+: r.1.path)
    (hf : ∀ st, st.path <+: (f st).1.path) : p <+: (Res.andThen r f).1.path := by
  unfold Res.andThen
  split
  · exact h
  · exact h.trans (hf _)

theorem whileMore_grows (c : Char) : ∀ (n : ℕ) (st : St ℚ), st.path <+: (whileMore rd mk c n st).1.path := by
  intro n
  induction n with
  | zero => intro st; exact List.prefix_rfl
  | succ n ih =>
    intro st
    unfold whileMore
    simp only
    split_ifs
    · exact andThen_grows (body_grows (⟨st.path, (more st.lx).2⟩ : St ℚ) c) ih
    · exact List.prefix_rfl

theorem exec_grows (st : St ℚ) (c) : st.path <+: (exec rd mk c st).1.path := by
  unfold exec
  by_cases h1 : isZ c = true
  · rw [if_pos h1]
    simp only
    split_ifs
    · exact List.prefix_rfl
    · exact closed_grows _ _
  rw [if_neg h1]
  by_cases h2 : c = 'm' ∨ c = 'M'
  · rw [if_pos h2]
    simp only
    by_cases h3 : (more st.lx).1 = true
    · rw [if_pos h3]
      exact andThen_grows (body_grows (⟨st.path, (more st.lx).2⟩ : St ℚ) c) (fun st => whileMore_grows _ _ _)
    · rw [if_neg h3]
  rw [if_neg h2]
  split_ifs
  · exact whileMore_grows _ _ _
  · exact andThen_grows (body_grows _ c) (fun st => whileMore_grows _ _ _)

theorem mainLoop_grows : ∀ (n : ℕ) (st : St ℚ), st.path <+: (mainLoop rd mk n st).1.path := by
  intro n
  induction n with
  | zero => intro st; exact List.prefix_rfl
  | succ n ih =>
    intro st
    unfold mainLoop
    split
    · exact List.prefix_rfl
    · rename_i c l _
      exact andThen_grows (exec_grows (⟨st.path, l⟩ : St ℚ) c) ih

end grows

/-- the same exception, the same text left, near paths -/
structure ResNear (E G : ℕ → ℚ) (r' r : Res ℚ) : Prop where
  err : r'.2 = r.2
  lx : r'.1.lx = r.1.lx
  path : PathNear E G r'.1.path r.1.path

section run
variable (D : Drift F M E G N rel smooth) {mk' mk : Path.ArcCtor ℚ} (hmk : ArcsAlike mk' mk)
include D hmk

theorem finish_near {c : Char} {inl : Option Char} {p' p : List (Seg ℚ)} (h : PathNear E G p' p) (hp : OkPath M rel smooth N p)
    {as' as : List (Arg ℚ)} (has : List.Forall₂ (ArgRel F (Lower c) (Path.currentPoint p') (Path.currentPoint p)) as' as)
    (hlen : as.length = (argSpec c).length) (hshape : Shape as)
    (hok : ∀ q, finish mk c inl p as = .ok q → OkPath M rel smooth N q) :
    OutNear E G (Flt.finish F mk' c inl p' as') (finish mk c inl p as) := by
  have low : Lower c → (as.length = 1 ∧ (c = 'm' ∨ c = 'l' ∨ c = 't')) ∨ (as.length = 2 ∧ (c = 'q' ∨ c = 's')) ∨ (as.length = 3 ∧ c = 'c') ∨
      (as.length = 6 ∧ c = 'a') := by
    intro hl
    simp only [Lower, List.mem_cons, List.not_mem_nil, or_false] at hl
    rcases hl with rfl | rfl | rfl | rfl | rfl | rfl | rfl <;> simp [argSpec] at hlen <;> simp [hlen]
  clear hlen
  cases hshape with
  | none =>
    cases has
    rfl
  | one q =>
    match as', has with
    | [a'], .cons h1 .nil =>
    obtain ⟨q', rfl⟩ := coord_inv h1
    have low : Lower c → c = 'm' ∨ c = 'l' ∨ c = 't' := fun hl => by simpa using low hl
    unfold Flt.finish
    unfold finish at hok ⊢
    dsimp only at hok ⊢
    by_cases hm : c = 'm' ∨ c = 'M'
    · rw [if_pos hm] at hok
      rw [if_pos hm, if_pos hm]
      match q', q, h1 with
      | none, none, _ => rfl
      | some q', some q, h1 =>
        refine move_near D h (r := Lower c) (fun hl => ?_) (t' := .pt q') (t := .pt q) h1 (hok _ rfl)
        rcases hm with rfl | rfl
        · rfl
        · simp [Lower] at hl
    · rw [if_neg hm] at hok
      rw [if_neg hm, if_neg hm]
      rcases orClose_rel (inl := inl) h1 with ⟨e, g1, g2⟩ | ⟨t', t, g1, g2, g3⟩
      · rw [g1, g2]; rfl
      · rw [g2] at hok
        rw [g1, g2]
        simp only [bind, Except.bind] at hok ⊢
        by_cases hl : c = 'l' ∨ c = 'L'
        · rw [if_pos hl] at hok
          rw [if_pos hl, if_pos hl]
          refine line_near D h (r := Lower c) (fun hL => ?_) g3 (hok _ rfl)
          rcases hl with rfl | rfl
          · rfl
          · simp [Lower] at hL
        · rw [if_neg hl] at hok
          rw [if_neg hl, if_neg hl]
          refine smoothQuad_near D h (r := Lower c) (fun hL => ?_) hp g3 hok
          rcases low hL with rfl | rfl | rfl
          · simp at hm
          · simp at hl
          · rfl
  | num x =>
    match as', has with
    | [a'], .cons h1 .nil =>
    obtain rfl := num_inv h1
    unfold Flt.finish
    unfold finish at hok ⊢
    dsimp only at hok ⊢
    by_cases hm : c = 'h' ∨ c = 'H'
    · rw [if_pos hm] at hok
      rw [if_pos hm, if_pos hm]
      exact horizontal_near D h hok
    · rw [if_neg hm] at hok
      rw [if_neg hm, if_neg hm]
      exact vertical_near D h hok
  | two q1 q2 =>
    match as', has with
    | [a1, a2], .cons h1 (.cons h2 .nil) =>
    obtain ⟨q1', rfl⟩ := coord_inv h1
    obtain ⟨q2', rfl⟩ := coord_inv h2
    have low : Lower c → c = 'q' ∨ c = 's' := fun hl => by simpa using low hl
    unfold Flt.finish
    unfold finish at hok ⊢
    dsimp only at hok ⊢
    rcases orClose_rel (inl := inl) h1 with ⟨e, g1, g2⟩ | ⟨t1', t1, g1, g2, g3⟩
    · rw [g1, g2]; rfl
    rw [g2] at hok
    rw [g1, g2]
    rcases orClose_rel (inl := inl) h2 with ⟨e, g1, g2⟩ | ⟨t2', t2, g1, g2, g4⟩
    · rw [g1, g2]; rfl
    rw [g2] at hok
    rw [g1, g2]
    simp only [bind, Except.bind] at hok ⊢
    by_cases hl : c = 'q' ∨ c = 'Q'
    · rw [if_pos hl] at hok
      rw [if_pos hl, if_pos hl]
      refine quad_near D h (r := Lower c) (fun hL => ?_) g3 g4 (hok _ rfl)
      rcases hl with rfl | rfl
      · rfl
      · simp [Lower] at hL
    · rw [if_neg hl] at hok
      rw [if_neg hl, if_neg hl]
      refine smoothCubic_near D h (r := Lower c) (fun hL => ?_) hp g3 g4 hok
      rcases low hL with rfl | rfl
      · simp at hl
      · rfl
  | three q1 q2 q3 =>
    match as', has with
    | [a1, a2, a3], .cons h1 (.cons h2 (.cons h3 .nil)) =>
    obtain ⟨q1', rfl⟩ := coord_inv h1
    obtain ⟨q2', rfl⟩ := coord_inv h2
    obtain ⟨q3', rfl⟩ := coord_inv h3
    have low : Lower c → c = 'c' := fun hl => by simpa using low hl
    unfold Flt.finish
    unfold finish at hok ⊢
    dsimp only at hok ⊢
    rcases orClose_rel (inl := inl) h1 with ⟨e, g1, g2⟩ | ⟨t1', t1, g1, g2, g3⟩
    · rw [g1, g2]; rfl
    rw [g2] at hok
    rw [g1, g2]
    rcases orClose_rel (inl := inl) h2 with ⟨e, g1, g2⟩ | ⟨t2', t2, g1, g2, g4⟩
    · rw [g1, g2]; rfl
    rw [g2] at hok
    rw [g1, g2]
    rcases orClose_rel (inl := inl) h3 with ⟨e, g1, g2⟩ | ⟨t3', t3, g1, g2, g5⟩
    · rw [g1, g2]; rfl
    rw [g2] at hok
    rw [g1, g2]
    simp only [bind, Except.bind] at hok ⊢
    exact cubic_near D h (r := Lower c) (fun hL => by rw [low hL]; rfl) g3 g4 g5 hok
  | arc rx ry rot large sweep q =>
    match as', has with
    | [a1, a2, a3, a4, a5, a6], .cons h1 (.cons h2 (.cons h3 (.cons h4 (.cons h5 (.cons h6 .nil))))) =>
    obtain rfl := num_inv h1
    obtain rfl := num_inv h2
    obtain rfl := num_inv h3
    obtain rfl := flag_inv h4
    obtain rfl := flag_inv h5
    obtain ⟨q', rfl⟩ := coord_inv h6
    have low : Lower c → c = 'a' := fun hl => by simpa using low hl
    unfold Flt.finish
    unfold finish at hok ⊢
    dsimp only at hok ⊢
    by_cases hm : c = 'a' ∧ sweep = none
    · rw [if_pos hm, if_pos hm]; rfl
    rw [if_neg hm] at hok
    rw [if_neg hm, if_neg hm]
    rcases orClose_rel (inl := inl) h6 with ⟨e, g1, g2⟩ | ⟨t', t, g1, g2, g3⟩
    · rw [g1, g2]; rfl
    rw [g2] at hok
    rw [g1, g2]
    simp only [bind, Except.bind] at hok ⊢
    exact arc_near D hmk h (r := Lower c) (fun hL => by rw [low hL]; rfl) g3 hok

theorem body_near (rd : List Char → ℚ) (c : Char) {p' p : List (Seg ℚ)} (h : PathNear E G p' p) (l : Lx)
    (hok : OkPath M rel smooth N (body rd mk c ⟨p, l⟩).1.path) :
    ResNear E G (Flt.body F (fun t => F.fl (rd t)) mk' c ⟨p', l⟩) (body rd mk c ⟨p, l⟩) := by
  have hp := hok.of_prefix (body_grows (⟨p, l⟩ : St ℚ) c)
  unfold body at hok ⊢
  unfold Flt.body
  dsimp only at hok hp ⊢
  rcases readArgs_rel (F := F) rd (OptNear.alike (current_near D h)) (argSpec c) (spec_lower c) l with
    ⟨e, l1, g1, g2⟩ | ⟨as', as, l1, g1, g2, g3, g4, g5⟩
  · rw [g1, g2]; exact ⟨rfl, rfl, h⟩
  · rw [g2] at hok
    rw [g1, g2]
    dsimp only at hok ⊢
    have := finish_near D hmk (inl := l1.inl) h hp g3 g4 (shape_of c as g5) (fun q hq => by rw [hq] at hok; exact hok)
    revert this
    cases Flt.finish F mk' c l1.inl p' as' <;> cases finish mk c l1.inl p as <;> intro this
    · exact ⟨congrArg some this, rfl, h⟩
    · exact this.elim
    · exact this.elim
    · exact ⟨rfl, rfl, this⟩

omit D hmk in
theorem andThen_near {r' r : Res ℚ} (h : ResNear E G r' r) {f' f : St ℚ → Res ℚ} (hg : ∀ st, st.path <+: (f st).1.path)
    (hf : ∀ p' p l, PathNear E G p' p → OkPath M rel smooth N (f ⟨p, l⟩).1.path → ResNear E G (f' ⟨p', l⟩) (f ⟨p, l⟩))
    (hok : OkPath M rel smooth N (Res.andThen r f).1.path) : ResNear E G (Res.andThen r' f') (Res.andThen r f) := by
  obtain ⟨⟨p', l'⟩, e'⟩ := r'
  obtain ⟨⟨p, l⟩, e⟩ := r
  obtain ⟨h1, h2, h3⟩ := h
  dsimp only at h1 h2 h3
  subst h1 h2
  cases e' with
  | some e => exact ⟨rfl, rfl, h3⟩
  | none => exact hf p' p l' h3 hok

omit D hmk in
theorem andThen_ok {r : Res ℚ} {f : St ℚ → Res ℚ} (hg : ∀ st, st.path <+: (f st).1.path)
    (hok : OkPath M rel smooth N (Res.andThen r f).1.path) : OkPath M rel smooth N r.1.path :=
  hok.of_prefix (andThen_grows List.prefix_rfl hg)

theorem whileMore_near (rd : List Char → ℚ) (c : Char) : ∀ (n : ℕ) {p' p : List (Seg ℚ)} (l : Lx), PathNear E G p' p →
    OkPath M rel smooth N (whileMore rd mk c n ⟨p, l⟩).1.path →
    ResNear E G (Flt.whileMore F (fun t => F.fl (rd t)) mk' c n ⟨p', l⟩) (whileMore rd mk c n ⟨p, l⟩)
  | 0, p', p, l, h, _ => ⟨rfl, rfl, h⟩
  | n + 1, p', p, l, h, hok => by
    unfold whileMore at hok ⊢
    unfold Flt.whileMore
    dsimp only at hok ⊢
    by_cases hm : (more l).1 = true
    · rw [if_pos hm] at hok
      rw [if_pos hm, if_pos hm]
      exact andThen_near (body_near D hmk rd c h _ (andThen_ok (whileMore_grows c n) hok)) (whileMore_grows c n)
        (fun p' p l hp ho => whileMore_near rd c n l hp ho) hok
    · rw [if_neg hm, if_neg hm]
      exact ⟨rfl, rfl, h⟩

theorem exec_near (rd : List Char → ℚ) (c : Char) {p' p : List (Seg ℚ)} (l : Lx) (h : PathNear E G p' p)
    (hok : OkPath M rel smooth N (exec rd mk c ⟨p, l⟩).1.path) :
    ResNear E G (Flt.exec F (fun t => F.fl (rd t)) mk' c ⟨p', l⟩) (exec rd mk c ⟨p, l⟩) := by
  unfold exec at hok ⊢
  unfold Flt.exec
  dsimp only at hok ⊢
  by_cases h1 : isZ c = true
  · rw [if_pos h1, if_pos h1]
    by_cases hm : (more l).1 = true
    · rw [if_pos hm, if_pos hm]; exact ⟨rfl, rfl, h⟩
    · rw [if_neg hm, if_neg hm]; exact ⟨rfl, rfl, closed_near D h⟩
  rw [if_neg h1] at hok
  rw [if_neg h1, if_neg h1]
  by_cases h2 : c = 'm' ∨ c = 'M'
  · rw [if_pos h2] at hok
    rw [if_pos h2, if_pos h2]
    by_cases hm : (more l).1 = true
    · rw [if_pos hm] at hok
      rw [if_pos hm, if_pos hm]
      exact andThen_near (body_near D hmk rd c h _ (andThen_ok (fun st => whileMore_grows _ _ st) hok)) (fun st => whileMore_grows _ _ st)
        (fun p' p l hp ho => whileMore_near D hmk rd _ _ l hp ho) hok
    · rw [if_neg hm, if_neg hm]; exact ⟨rfl, rfl, h⟩
  rw [if_neg h2] at hok
  rw [if_neg h2, if_neg h2]
  by_cases h3 : c = 'V' ∨ c = 'a' ∨ c = 'A'
  · rw [if_pos h3] at hok
    rw [if_pos h3, if_pos h3]
    exact whileMore_near D hmk rd _ _ l h hok
  · rw [if_neg h3] at hok
    rw [if_neg h3, if_neg h3]
    exact andThen_near (body_near D hmk rd c h _ (andThen_ok (fun st => whileMore_grows _ _ st) hok)) (fun st => whileMore_grows _ _ st)
      (fun p' p l hp ho => whileMore_near D hmk rd _ _ l hp ho) hok

theorem mainLoop_near (rd : List Char → ℚ) : ∀ (n : ℕ) {p' p : List (Seg ℚ)} (l : Lx), PathNear E G p' p →
    OkPath M rel smooth N (mainLoop rd mk n ⟨p, l⟩).1.path →
    ResNear E G (Flt.mainLoop F (fun t => F.fl (rd t)) mk' n ⟨p', l⟩) (mainLoop rd mk n ⟨p, l⟩)
  | 0, p', p, l, h, _ => ⟨rfl, rfl, h⟩
  | n + 1, p', p, l, h, hok => by
    unfold mainLoop at hok ⊢
    unfold Flt.mainLoop
    dsimp only at hok ⊢
    cases hc : command l with
    | mk c l1 =>
      rw [hc] at hok
      cases c with
      | none => exact ⟨rfl, rfl, h⟩
      | some c =>
        exact andThen_near (exec_near D hmk rd c l1 h (andThen_ok (mainLoop_grows n) hok)) (mainLoop_grows n)
          (fun p' p l hp ho => mainLoop_near rd n l hp ho) hok

theorem parse_near (val : List Char → ℚ) (p : List (Seg ℚ)) (text : List Char) (hok : OkPath M rel smooth N (parse val mk p text).1.path) :
    ResNear E G (Flt.parse F val mk' p text) (parse val mk p text) :=
  mainLoop_near D hmk val _ _ (near_self D p) hok

end run

theorem drift_any (F : FloatRounding) {M : ℚ} (hM : 0 ≤ M) :
    Drift F M (fun n => n * (M / 2 ^ 51 + 1 / 2 ^ 1072)) (fun n => n ^ 2 * (M / 2 ^ 51 + 1 / 2 ^ 1072)) (2 ^ 24) True True := by
  have ht : (0 : ℚ) ≤ 1 / 2 ^ 1074 := by positivity
  have e4 : (1 : ℚ) / 2 ^ 1072 = 4 * (1 / 2 ^ 1074) := by rw [show (1074 : ℕ) = 1072 + 2 from rfl, pow_add]; ring
  have err := F.err
  rw [e4]
  clear e4
  generalize (1 : ℚ) / 2 ^ 1074 = t at *
  have hd : 0 ≤ M / 2 ^ 51 + 4 * t := by positivity
  refine ⟨fun i => ?_, fun i => ?_, fun i => ?_, fun x hx => ?_, hM, fun _ n hn a c c' hc hac he => ?_,
    fun _ n hn p p' c c' hp hc hr he hg => ?_⟩
  · exact mul_le_mul_of_nonneg_right (by push_cast; linarith) hd
  · exact mul_le_mul_of_nonneg_right (by push_cast; nlinarith [(Nat.cast_nonneg i : (0 : ℚ) ≤ i)]) hd
  · refine mul_le_mul_of_nonneg_right ?_ hd
    rcases Nat.eq_zero_or_pos i with rfl | hi
    · simp
    · have : (1 : ℚ) ≤ i := by exact_mod_cast hi
      nlinarith
  · have := err x
    push_cast
    norm_num1 at *
    linarith
  · have hN : (n : ℚ) ≤ 2 ^ 24 := by exact_mod_cast hn.le
    have h0 : (0 : ℚ) ≤ n := Nat.cast_nonneg n
    have hX : (n : ℚ) * (M / 2 ^ 51 + 4 * t) ≤ 2 ^ 24 * (M / 2 ^ 51 + 4 * t) := mul_le_mul_of_nonneg_right hN hd
    push_cast
    rw [add_mul, one_mul]
    generalize (n : ℚ) * (M / 2 ^ 51 + 4 * t) = X at *
    have h1 := err a
    have h2 := err (F.fl a + c')
    have ha : |a| ≤ 2 * M := by rw [abs_le] at hc hac ⊢; constructor <;> linarith [hc.1, hc.2, hac.1, hac.2]
    have e1 : |F.fl a + c' - (a + c)| ≤ |F.fl a - a| + |c' - c| := by
      rw [show F.fl a + c' - (a + c) = (F.fl a - a) + (c' - c) by ring]; exact abs_add_le _ _
    have e2 : |F.fl a + c'| ≤ |a + c| + |F.fl a + c' - (a + c)| := by
      have := abs_add_le (a + c) (F.fl a + c' - (a + c)); rwa [add_sub_cancel] at this
    have e3 : |F.fl (F.fl a + c') - (a + c)| ≤ |F.fl (F.fl a + c') - (F.fl a + c')| + |F.fl a + c' - (a + c)| := abs_sub_le _ _ _
    generalize |F.fl (F.fl a + c') - (a + c)| = A at *
    generalize |F.fl (F.fl a + c') - (F.fl a + c')| = B at *
    generalize |F.fl a + c' - (a + c)| = C at *
    generalize |F.fl a + c'| = H at *
    generalize |F.fl a - a| = J at *
    norm_num1 at *
    linarith
  · have hN : (n : ℚ) ≤ 2 ^ 24 := by exact_mod_cast hn.le
    have h0 : (0 : ℚ) ≤ n := Nat.cast_nonneg n
    have hX : (n : ℚ) * (M / 2 ^ 51 + 4 * t) ≤ 2 ^ 24 * (M / 2 ^ 51 + 4 * t) := mul_le_mul_of_nonneg_right hN hd
    have hY : (n : ℚ) ^ 2 * (M / 2 ^ 51 + 4 * t) ≤ (2 ^ 24) ^ 2 * (M / 2 ^ 51 + 4 * t) :=
      mul_le_mul_of_nonneg_right (pow_le_pow_left₀ h0 hN 2) hd
    push_cast
    rw [show ((n : ℚ) + 1) ^ 2 * (M / 2 ^ 51 + 4 * t) = (n : ℚ) ^ 2 * (M / 2 ^ 51 + 4 * t) + 2 * ((n : ℚ) * (M / 2 ^ 51 + 4 * t)) + (M / 2 ^ 51 + 4 * t) by ring]
    generalize (n : ℚ) * (M / 2 ^ 51 + 4 * t) = X at *
    generalize (n : ℚ) ^ 2 * (M / 2 ^ 51 + 4 * t) = Y at *
    have h1 := err (p' - c')
    have h2 := err (p' + F.fl (p' - c'))
    have e1 : |p' - c' - (p - c)| ≤ |p' - p| + |c' - c| := by
      rw [show p' - c' - (p - c) = (p' - p) - (c' - c) by ring]; exact abs_sub _ _
    have e2 : |p' - c'| ≤ |p - c| + |p' - c' - (p - c)| := by
      have := abs_add_le (p - c) (p' - c' - (p - c)); rwa [add_sub_cancel] at this
    have e3 : |p - c| ≤ |p| + |c| := abs_sub _ _
    have e4 : |p' + F.fl (p' - c') - (p + (p - c))| ≤ |p' - p| + (|F.fl (p' - c') - (p' - c')| + |p' - c' - (p - c)|) := by
      rw [show p' + F.fl (p' - c') - (p + (p - c)) = (p' - p) + ((F.fl (p' - c') - (p' - c')) + (p' - c' - (p - c))) by ring]
      exact (abs_add_le _ _).trans (add_le_add_right (abs_add_le _ _) _)
    have e5 : |p' + F.fl (p' - c')| ≤ |p + (p - c)| + |p' + F.fl (p' - c') - (p + (p - c))| := by
      have := abs_add_le (p + (p - c)) (p' + F.fl (p' - c') - (p + (p - c))); rwa [add_sub_cancel] at this
    have e6 : |F.fl (p' + F.fl (p' - c')) - (p + (p - c))| ≤
        |F.fl (p' + F.fl (p' - c')) - (p' + F.fl (p' - c'))| + |p' + F.fl (p' - c') - (p + (p - c))| := abs_sub_le _ _ _
    generalize |F.fl (p' + F.fl (p' - c')) - (p + (p - c))| = A at *
    generalize |F.fl (p' + F.fl (p' - c')) - (p' + F.fl (p' - c'))| = B at *
    generalize |p' + F.fl (p' - c') - (p + (p - c))| = C at *
    generalize |p' + F.fl (p' - c')| = H at *
    generalize |F.fl (p' - c') - (p' - c')| = J at *
    generalize |p' - c' - (p - c)| = K at *
    generalize |p' - c'| = L at *
    generalize |p - c| = O at *
    norm_num1 at *
    linarith

theorem drift_absolute (F : FloatRounding) {M : ℚ} (hM : 0 ≤ M) (N : ℕ) :
    Drift F M (fun _ => M / 2 ^ 53 + 1 / 2 ^ 1074) (fun _ => M / 2 ^ 53 + 1 / 2 ^ 1074) N False False where
  monoE _ := le_rfl
  monoG _ := le_rfl
  le _ := le_rfl
  read x hx := (F.err x).trans (by have : |x| / 2 ^ 53 ≤ M / 2 ^ 53 := by gcongr
                                   linarith)
  nonneg := hM
  add h := h.elim
  reflect h := h.elim

end FloatPath

variable {mk' mk : Path.ArcCtor ℚ}

/-- C156: whatever the text and the path it is added to, reading it with floats fails where exact reading fails, stops at the same place,
and gives as many segments of the same classes. If the coordinates of the exact path are at most `M` in size, end points of the n-th segment are
off by at most n times the rounding error, four units at `M`, and control points by at most n² times that. -/
theorem C156_drift (F : FloatRounding) (hmk : ArcsAlike mk' mk) (val : List Char → ℚ) (p : List (Seg ℚ)) (text : List Char) {M : ℚ} (hM : 0 ≤ M)
    (hlen : (parse val mk p text).1.path.length ≤ 2 ^ 24) (hin : ∀ s ∈ (parse val mk p text).1.path, SegIn M s) :
    (Flt.parse F val mk' p text).2 = (parse val mk p text).2 ∧
    (Flt.parse F val mk' p text).1.lx.rest = (parse val mk p text).1.lx.rest ∧
    PathNear (fun n => n * (M / 2 ^ 51 + 1 / 2 ^ 1072)) (fun n => n ^ 2 * (M / 2 ^ 51 + 1 / 2 ^ 1072))
      (Flt.parse F val mk' p text).1.path (parse val mk p text).1.path := by
  have := FloatPath.parse_near (FloatPath.drift_any F hM) hmk val p text
    ⟨hlen, fun s hs => ⟨hin s hs, fun _ _ => trivial, fun _ => trivial⟩⟩
  exact ⟨this.err, by rw [this.lx], this.path⟩

/-- C156: if no segment is written relative to the current point and no curve is smooth, every coordinate is off by one rounding only -/
theorem C156_absolute (F : FloatRounding) (hmk : ArcsAlike mk' mk) (val : List Char → ℚ) (p : List (Seg ℚ)) (text : List Char) {M : ℚ} (hM : 0 ≤ M)
    (hin : ∀ s ∈ (parse val mk p text).1.path, SegIn M s)
    (hrel : ∀ s ∈ (parse val mk p text).1.path, s.relative = true → s.isClose = true)
    (hsm : ∀ s ∈ (parse val mk p text).1.path, ¬ IsSmooth s) :
    (Flt.parse F val mk' p text).2 = (parse val mk p text).2 ∧
    (Flt.parse F val mk' p text).1.lx.rest = (parse val mk p text).1.lx.rest ∧
    PathNear (fun _ => M / 2 ^ 53 + 1 / 2 ^ 1074) (fun _ => M / 2 ^ 53 + 1 / 2 ^ 1074)
      (Flt.parse F val mk' p text).1.path (parse val mk p text).1.path := by
  have := FloatPath.parse_near (FloatPath.drift_absolute F hM _) hmk val p text
    ⟨le_rfl, fun s hs => ⟨hin s hs, fun h1 h2 => by simp [hrel s hs h1] at h2, hsm s hs⟩⟩
  exact ⟨this.err, by rw [this.lx], this.path⟩

/-- C156: path data that write the commands `cs` give with floats the segments that the commands mean, up to the error of `C156_drift` -/
theorem C156_meaning (F : FloatRounding) (hmk : ArcsAlike mk' mk) {arcOf : ArcOf ℚ} (harc : ArcsBy mk arcOf) {val : List Char → ℚ}
    {cs : List (Cmd ℚ)} {text : List Char} (hwf : WellFormed cs) (hw : Writes val cs text) {M : ℚ} (hM : 0 ≤ M)
    (hlen : cs.length ≤ 2 ^ 24) (hin : ∀ s ∈ meaning arcOf true cs, SegIn M s) :
    (Flt.parse F val mk' [] text).2 = none ∧ (Flt.parse F val mk' [] text).1.lx.rest = [] ∧
    PathNear (fun n => n * (M / 2 ^ 51 + 1 / 2 ^ 1072)) (fun n => n ^ 2 * (M / 2 ^ 51 + 1 / 2 ^ 1072))
      (Flt.parse F val mk' [] text).1.path (meaning arcOf true cs) := by
  have hd : ∀ (cs : List (Cmd ℚ)) (pen : Pen ℚ), (draw arcOf true pen cs).length = cs.length := by
    intro cs
    induction cs with
    | nil => intro pen; rfl
    | cons c cs ih => intro pen; simp [draw, ih]
  have hl : (meaning arcOf true cs).length ≤ cs.length := by
    cases cs with
    | nil => simp [meaning]
    | cons c cs => cases c <;> simp [meaning, hd]
  have h38 := C38_text_meaning harc hwf hw
  have h := C156_drift F hmk val [] text hM (by rw [h38]; exact hl.trans hlen) (by rw [h38]; exact hin)
  rw [h38] at h
  exact h

/-- the errors do add up: ten steps of 0.1 from 0 end at 1 - 1/2^53 with doubles, not at 1; written absolutely, the point is 1 -/
theorem C156_adds_up :
    Path.currentPoint (parse floatVal dummyArc [] "M0,0l.1,0 .1,0 .1,0 .1,0 .1,0 .1,0 .1,0 .1,0 .1,0 .1,0".toList).1.path = some ⟨1, 0⟩ ∧
    Path.currentPoint (Flt.parse doubles floatVal dummyArc [] "M0,0l.1,0 .1,0 .1,0 .1,0 .1,0 .1,0 .1,0 .1,0 .1,0 .1,0".toList).1.path =
      some ⟨1 - 1 / 2 ^ 53, 0⟩ ∧
    Path.currentPoint (Flt.parse doubles floatVal dummyArc [] "M0,0L1,0".toList).1.path = some ⟨1, 0⟩ := by
  refine ⟨?_, ?_, ?_⟩ <;> decide +kernel

/-- constructors that never raise are alike -/
example : ArcsAlike dummyArc dummyArc := fun _ _ _ _ _ _ _ _ _ _ _ _ _ _ _ e => by simp [dummyArc]

/-- a path to which the theorems apply: relative, with a smooth curve, all coordinates at most 5 in size -/
example : ∀ s ∈ (parse floatVal dummyArc [] "m1,1q1,0 2,2t1,1z".toList).1.path, SegIn 5 s := by
  have h : (parse floatVal dummyArc [] "m1,1q1,0 2,2t1,1z".toList).1.path =
      [⟨.move, none, some ⟨1, 1⟩, true, true⟩, ⟨.quad (some ⟨2, 1⟩), some ⟨1, 1⟩, some ⟨3, 3⟩, true, false⟩,
       ⟨.quad (some ⟨4, 5⟩), some ⟨3, 3⟩, some ⟨4, 4⟩, true, true⟩, ⟨.close, some ⟨4, 4⟩, some ⟨1, 1⟩, true, true⟩] := by
    decide +kernel
  rw [h]
  simp [SegIn, PtIn]
  norm_num [abs_of_pos]

/-- and one of absolute commands -/
example : (∀ s ∈ (parse floatVal dummyArc [] "M1,1Q1,0 2,2z".toList).1.path, s.relative = true → s.isClose = true) ∧
    ∀ s ∈ (parse floatVal dummyArc [] "M1,1Q1,0 2,2z".toList).1.path, ¬ IsSmooth s := by
  have h : (parse floatVal dummyArc [] "M1,1Q1,0 2,2z".toList).1.path =
      [⟨.move, none, some ⟨1, 1⟩, false, true⟩, ⟨.quad (some ⟨1, 0⟩), some ⟨1, 1⟩, some ⟨2, 2⟩, false, false⟩,
       ⟨.close, some ⟨2, 2⟩, some ⟨1, 1⟩, true, true⟩] := by
    decide +kernel
  rw [h]
  simp [IsSmooth, Seg.isClose]

end Svgio.Props
