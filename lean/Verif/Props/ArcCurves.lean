import Verif.Props.ArcTransform
import Verif.Props.PathValidate

/-!
C63: arcs replaced by Bezier curves.
-/

namespace Svgio.Arc

open Real Spec Svgio.Props

/-- where the curves meet: the start, points of the ellipse at equal distances of the parameter, the end -/
noncomputable def joint (a : ArcData ℝ) (start stop : Pt ℝ) (n i : ℕ) : Pt ℝ :=
  if i = 0 then start else if i = n then stop
  else ellipse a.center (rx a) (ry a) (rotation a) (endT a start + a.sweep * i / n)

/-- a quadratic or cubic curve with all points -/
def IsCurve (s : Seg ℝ) : Prop := (∃ c, s.kind = .quad (some c)) ∨ ∃ c d, s.kind = .cubic (some c) (some d)

/-- `l` is a sequence of curves through the joints -/
def Runs (P : ℕ → Pt ℝ) (l : List (Seg ℝ)) : Prop :=
  ∀ i s, l[i]? = some s → IsCurve s ∧ s.start = some (P i) ∧ s.stop = some (P (i + 1))

theorem Runs.cons {P : ℕ → Pt ℝ} {s : Seg ℝ} {l : List (Seg ℝ)} (h1 : IsCurve s) (h2 : s.start = some (P 0))
    (h3 : s.stop = some (P 1)) (h : Runs (fun i => P (i + 1)) l) : Runs P (s :: l) := by
  intro i t ht
  cases i with
  | zero => simp at ht; subst ht; exact ⟨h1, h2, h3⟩
  | succ i => exact h i t (by simpa using ht)

theorem pointAtT_ellipse (a : ArcData ℝ) (t : ℝ) : pointAtT a t = ellipse a.center (rx a) (ry a) (rotation a) t := by
  simp only [pointAtT, ellipse]
  congr 1 <;> ring

/-- the joints seen from inside the loop -/
noncomputable def loopJoint (a : ArcData ℝ) (v stop : Pt ℝ) (t w : ℝ) (n i : ℕ) : Pt ℝ :=
  if i = 0 then v else if i = n then stop else pointAtT a (t + i * w)

theorem loopJoint_succ (a : ArcData ℝ) (v stop : Pt ℝ) (t w : ℝ) (n i : ℕ) :
    loopJoint a v stop t w (n + 1) (i + 1) =
      loopJoint a (if n = 0 then stop else pointAtT a (t + w)) stop (t + w) w n i := by
  unfold loopJoint
  rcases i with _ | i
  · by_cases hn : n = 0
    · simp [hn]
    · have : ¬ (0 + 1 = n + 1) := by omega
      simp [hn, this]
  · by_cases h : i + 1 = n
    · have : n ≠ 0 := by omega
      simp [h, this]
    · have : ¬ (i + 1 + 1 = n + 1) := by omega
      simp [h]
      congr 1
      ring

theorem quadLoop_runs (a : ArcData ℝ) (stop : Pt ℝ) (w : ℝ) : ∀ (n : ℕ) (t : ℝ) (v : Pt ℝ),
    (quadLoop a stop w n t v).length = n ∧ Runs (loopJoint a v stop t w n) (quadLoop a stop w n t v) := by
  intro n
  induction n with
  | zero => intro t v; exact ⟨rfl, fun i s h => by simp [quadLoop] at h⟩
  | succ n ih =>
    intro t v
    unfold quadLoop
    obtain ⟨h1, h2⟩ := ih (t + w) (if n = 0 then stop else pointAtT a (t + w))
    refine ⟨by simp [h1], ?_⟩
    refine Runs.cons (Or.inl ⟨_, rfl⟩) ?_ ?_ ?_
    · simp [loopJoint]
    · rw [loopJoint_succ]; simp [loopJoint]
    · rw [show (fun i => loopJoint a v stop t w (n + 1) (i + 1)) =
        loopJoint a (if n = 0 then stop else pointAtT a (t + w)) stop (t + w) w n from
        funext (loopJoint_succ a v stop t w n)]
      exact h2

theorem cubicLoop_runs (a : ArcData ℝ) (stop : Pt ℝ) (w : ℝ) : ∀ (n : ℕ) (t : ℝ) (v : Pt ℝ),
    (cubicLoop a stop w n t v).length = n ∧ Runs (loopJoint a v stop t w n) (cubicLoop a stop w n t v) := by
  intro n
  induction n with
  | zero => intro t v; exact ⟨rfl, fun i s h => by simp [cubicLoop] at h⟩
  | succ n ih =>
    intro t v
    unfold cubicLoop
    obtain ⟨h1, h2⟩ := ih (t + w) (if n = 0 then stop else pointAtT a (t + w))
    have hp : (⟨a.center.x + rx a * cos (t + w) * cos (rotation a) - ry a * sin (t + w) * sin (rotation a),
        a.center.y + rx a * cos (t + w) * sin (rotation a) + ry a * sin (t + w) * cos (rotation a)⟩ : Pt ℝ) =
        pointAtT a (t + w) := rfl
    simp only [hp]
    refine ⟨by simp [h1], ?_⟩
    refine Runs.cons (Or.inr ⟨_, _, rfl⟩) ?_ ?_ ?_
    · simp [loopJoint]
    · rw [loopJoint_succ]; simp [loopJoint]
    · rw [show (fun i => loopJoint a v stop t w (n + 1) (i + 1)) =
        loopJoint a (if n = 0 then stop else pointAtT a (t + w)) stop (t + w) w n from
        funext (loopJoint_succ a v stop t w n)]
      exact h2

theorem loopJoint_joint (a : ArcData ℝ) (start stop : Pt ℝ) (n : ℤ) (i : ℕ) (hn : 0 < n) :
    loopJoint a start stop (endT a start) (a.sweep / n) n.toNat i = joint a start stop n.toNat i := by
  unfold loopJoint joint
  have : ((n.toNat : ℕ) : ℝ) = (n : ℝ) := by
    have := Int.toNat_of_nonneg hn.le
    exact_mod_cast this
  rw [pointAtT_ellipse, this]
  congr 3
  ring

/-- C63: both methods yield the requested number of curves (without a request: one for each started twelfth of a turn), the first
from the arc's start, the last to the arc's end, each from the end of the one before, and they meet on the ellipse at equal
distances of the parameter. -/
theorem C63_curves (start stop : Pt ℝ) (a : ArcData ℝ) (required : Option ℤ) {n : ℤ} (hn : 0 < n)
    (h : required = some n ∨ (required = none ∧ (n : ℝ) - 1 < |a.sweep| / (2 * π / 12) ∧ |a.sweep| / (2 * π / 12) ≤ n)) :
    ((asQuadCurves start stop a required).length = n ∧ Runs (joint a start stop n.toNat) (asQuadCurves start stop a required)) ∧
    ((asCubicCurves start stop a required).length = n ∧ Runs (joint a start stop n.toNat) (asCubicCurves start stop a required)) := by
  have hr : arcRequired a required = n := by
    unfold arcRequired
    rcases h with h | ⟨h, h1, h2⟩
    · rw [h]; rfl
    · rw [h]
      simp only [Option.getD_none, tau]
      exact Int.ceil_eq_iff.mpr ⟨h1, h2⟩
  have hj : loopJoint a start stop (endT a start) (a.sweep / n) n.toNat = joint a start stop n.toNat :=
    funext fun i => loopJoint_joint a start stop n i hn
  have hnn : ((n.toNat : ℕ) : ℤ) = n := Int.toNat_of_nonneg hn.le
  unfold asQuadCurves asCubicCurves
  simp only [hr, if_neg hn.ne']
  have h1 := quadLoop_runs a stop (a.sweep / n) n.toNat (endT a start) start
  have h2 := cubicLoop_runs a stop (a.sweep / n) n.toNat (endT a start) start
  rw [hj] at h1 h2
  exact ⟨⟨by rw [h1.1, hnn], h1.2⟩, ⟨by rw [h2.1, hnn], h2.2⟩⟩

example : ∃ (a : ArcData ℝ) (n : ℤ), 0 < n ∧ (n : ℝ) - 1 < |a.sweep| / (2 * π / 12) ∧ |a.sweep| / (2 * π / 12) ≤ n ∧ n = 3 := by
  have hpi := pi_pos
  refine ⟨{ center := ⟨0, 0⟩, prx := ⟨1, 0⟩, pry := ⟨0, 1⟩, sweep := π / 2 }, 3, by norm_num, ?_⟩
  simp only
  have : |π / 2| / (2 * π / 12) = 3 := by rw [abs_of_pos (by positivity)]; field_simp; norm_num
  rw [this]
  norm_num

/-- a sequence of curves through joints, after a point near the first joint, is connected and ends at the last joint -/
theorem runs_chain (z e : Pt ℝ) (l : List (Seg ℝ)) (P : ℕ → Pt ℝ) (h : Runs P l) (h0 : Near e (P 0)) :
    Chain Near Near z e l ∧ after z e l = if l = [] then (z, e) else (z, P l.length) := by
  induction l generalizing e P with
  | nil => exact ⟨trivial, rfl⟩
  | cons s l ih =>
    obtain ⟨h1, h2, h3⟩ := h 0 s rfl
    have hm : s.isMove = false := by
      rcases h1 with ⟨c, hc⟩ | ⟨c, d, hc⟩ <;> simp [Seg.isMove, hc]
    have hcl : s.isClose = false := by
      rcases h1 with ⟨c, hc⟩ | ⟨c, d, hc⟩ <;> simp [Seg.isClose, hc]
    have htail : Runs (fun i => P (i + 1)) l := fun i t ht => h (i + 1) t (by simpa using ht)
    obtain ⟨i1, i2⟩ := ih (P 1) (fun i => P (i + 1)) htail (near_refl _)
    refine ⟨⟨P 0, P 1, h2, h3, h0, by simp [hcl], by rw [hm]; exact i1⟩, ?_⟩
    rw [after_cons h3, hm]
    simp only [Bool.false_eq_true, if_false]
    rw [i2]
    rcases l with _ | ⟨t, l⟩
    · simp
    · simp

/-- the path with every arc replaced -/
noncomputable def replaced (curves : Pt ℝ → Pt ℝ → ArcData ℝ → Option ℤ → List (Seg ℝ)) (error : ℝ) (s : Seg ℝ) : List (Seg ℝ) :=
  match s.kind, s.start, s.stop with
  | .arc a, some v, some u => curves v u a (some ⌈|a.sweep| / (2 * π * error)⌉)
  | _, _, _ => [s]

/-- the segment is an arc -/
def IsArc (s : Seg ℝ) : Prop := ∃ a, s.kind = .arc a

/-- what is needed of the curves: they lead from the start to the end -/
def Leads (curves : Pt ℝ → Pt ℝ → ArcData ℝ → Option ℤ → List (Seg ℝ)) : Prop :=
  ∀ v u a (n : ℤ), 0 < n → ∃ P, Runs P (curves v u a (some n)) ∧ curves v u a (some n) ≠ [] ∧ P 0 = v ∧
    P (curves v u a (some n)).length = u

theorem leads_quads : Leads asQuadCurves := by
  intro v u a n hn
  obtain ⟨⟨h1, h2⟩, -⟩ := C63_curves v u a (some n) hn (Or.inl rfl)
  have hl : (asQuadCurves v u a (some n)).length = n.toNat := by omega
  refine ⟨_, h2, ?_, by simp [joint], ?_⟩
  · intro h; rw [h] at hl; simp at hl; omega
  · rw [hl]; unfold joint; rw [if_neg (by omega), if_pos rfl]

theorem leads_cubics : Leads asCubicCurves := by
  intro v u a n hn
  obtain ⟨-, ⟨h1, h2⟩⟩ := C63_curves v u a (some n) hn (Or.inl rfl)
  have hl : (asCubicCurves v u a (some n)).length = n.toNat := by omega
  refine ⟨_, h2, ?_, by simp [joint], ?_⟩
  · intro h; rw [h] at hl; simp at hl; omega
  · rw [hl]; unfold joint; rw [if_neg (by omega), if_pos rfl]

theorem replaced_chain {curves : Pt ℝ → Pt ℝ → ArcData ℝ → Option ℤ → List (Seg ℝ)} (hc : Leads curves) {error : ℝ} (he : 0 < error)
    {z e : Pt ℝ} {r : List (Seg ℝ)} (hs : ∀ s ∈ r, ∀ a, s.kind = .arc a → a.sweep ≠ 0) (h : Chain Near Near z e r) :
    Chain Near Near z e (r.flatMap (replaced curves error)) := by
  induction r generalizing z e with
  | nil => exact trivial
  | cons s r ih =>
    have hs' : ∀ t ∈ r, ∀ a, t.kind = .arc a → a.sweep ≠ 0 := fun t ht => hs t (by simp [ht])
    obtain ⟨v, u, h1, h2, h3, h4, h5⟩ := h
    rw [List.flatMap_cons, chain_append]
    by_cases ha : IsArc s
    · obtain ⟨a, ha⟩ := ha
      have hr : replaced curves error s = curves v u a (some ⌈|a.sweep| / (2 * π * error)⌉) := by
        unfold replaced; rw [ha, h1, h2]
      have hn : 0 < ⌈|a.sweep| / (2 * π * error)⌉ := by
        rw [Int.ceil_pos]
        have := abs_pos.mpr (hs s (by simp) a ha)
        have hpi := pi_pos
        positivity
      obtain ⟨P, p1, p2, p3, p4⟩ := hc v u a _ hn
      obtain ⟨c1, c2⟩ := runs_chain z e _ P p1 (by rw [p3]; exact h3)
      rw [hr]
      refine ⟨c1, ?_⟩
      rw [c2, if_neg p2, p4]
      have hm : s.isMove = false := by unfold Seg.isMove; rw [ha]
      rw [hm] at h5
      exact ih hs' h5
    · have hr : replaced curves error s = [s] := by
        unfold replaced
        cases hk : s.kind with
        | arc a => exact absurd ⟨a, hk⟩ ha
        | _ => rfl
      rw [hr]
      refine ⟨⟨v, u, h1, h2, h3, h4, trivial⟩, ?_⟩
      rw [after_cons h2]
      exact ih hs' h5

theorem validate_fix {s : Seg ℝ} {u : Pt ℝ} {r : List (Seg ℝ)} (hu : s.stop = some u) (h : Chain Near Near u u r) :
    Path.validateConnections (s :: r) = s :: r := by
  change Path.vcGo s.stop s r = _
  rw [hu, vcGo_eq u u s r hu (fun t ht _ => chain_ends h t ht), rep_fix _ _ _ h]

theorem approxLoop_eq {curves : Pt ℝ → Pt ℝ → ArcData ℝ → Option ℤ → List (Seg ℝ)} (hc : Leads curves) {error : ℝ} (he : 0 < error)
    {m : Seg ℝ} {u : Pt ℝ} (hm : ¬ IsArc m) (hu : m.stop = some u) {r : List (Seg ℝ)}
    (hs : ∀ s ∈ r, ∀ a, s.kind = .arc a → a.sweep ≠ 0) (h : Chain Near Near u u r) :
    ∀ n, n ≤ r.length → approxLoop curves error (n + 1) (m :: (r.take n ++ (r.drop n).flatMap (replaced curves error))) =
      .ok (m :: r.flatMap (replaced curves error)) := by
  have htau : tau * error ≠ 0 := by unfold tau; have := pi_pos; positivity
  intro n
  induction n with
  | zero =>
    intro _
    simp only [approxLoop, approxStep, List.getElem?_cons_zero, List.take_zero, List.nil_append, List.drop_zero]
    cases hk : m.kind with
    | arc a => exact absurd ⟨a, hk⟩ hm
    | _ => rfl
  | succ n ih =>
    intro hn
    have hlt : n < r.length := by omega
    obtain ⟨s, hsn⟩ : ∃ s, r[n]? = some s := ⟨r[n], by rw [List.getElem?_eq_getElem hlt]⟩
    have htake : r.take (n + 1) = r.take n ++ [s] := by
      rw [List.take_succ, hsn]; rfl
    have hdrop : r.drop n = s :: r.drop (n + 1) := by
      rw [List.drop_eq_getElem_cons hlt]
      congr 1
      rw [List.getElem?_eq_getElem hlt] at hsn
      exact Option.some.inj hsn
    have hlen : (r.take n).length = n := by rw [List.length_take]; omega
    have hget : (m :: (r.take (n + 1) ++ (r.drop (n + 1)).flatMap (replaced curves error)))[n + 1]? = some s := by
      rw [List.getElem?_cons_succ, htake, List.append_assoc, List.getElem?_append_right (by omega), hlen]
      simp
    have hstep : approxStep curves error (m :: (r.take (n + 1) ++ (r.drop (n + 1)).flatMap (replaced curves error))) (n + 1) =
        .ok (m :: (r.take n ++ (r.drop n).flatMap (replaced curves error))) := by
      have hchain : Chain Near Near u u (r.take n ++ (r.drop n).flatMap (replaced curves error)) := by
        have h' := h
        rw [← List.take_append_drop n r, chain_append] at h'
        rw [chain_append]
        exact ⟨h'.1, replaced_chain hc he (fun t ht => hs t (List.mem_of_mem_drop ht)) h'.2⟩
      unfold approxStep
      rw [hget]
      by_cases ha : IsArc s
      · obtain ⟨a, ha⟩ := ha
        have hends : s.start ≠ none ∧ s.stop ≠ none := by
          have h' := h
          rw [← List.take_append_drop n r, chain_append, hdrop] at h'
          obtain ⟨v, w, h1, h2, -⟩ := h'.2
          rw [h1, h2]; simp
        obtain ⟨v, hv⟩ := Option.ne_none_iff_exists'.mp hends.1
        obtain ⟨w, hw⟩ := Option.ne_none_iff_exists'.mp hends.2
        simp only [ha, hv, hw, if_neg htau]
        have hr : replaced curves error s = curves v w a (some ⌈|a.sweep| / (tau * error)⌉) := by
          unfold replaced; rw [ha, hv, hw]; rfl
        rw [← hr]
        congr 1
        have e1 : (m :: (r.take (n + 1) ++ (r.drop (n + 1)).flatMap (replaced curves error))).take (n + 1) = m :: r.take n := by
          rw [List.take_succ_cons, htake, List.append_assoc, List.take_append_of_le_length (by omega),
            List.take_of_length_le (by omega)]
        have e2 : (m :: (r.take (n + 1) ++ (r.drop (n + 1)).flatMap (replaced curves error))).drop (n + 1 + 1) =
            (r.drop (n + 1)).flatMap (replaced curves error) := by
          rw [List.drop_succ_cons, htake]
          rw [List.drop_append_of_le_length (by simp; omega), List.drop_of_length_le (by simp), List.nil_append]
        rw [e1, e2, List.cons_append, List.cons_append, List.append_assoc, ← List.flatMap_cons, ← hdrop]
        exact validate_fix hu hchain
      · have hr : replaced curves error s = [s] := by
          unfold replaced
          cases hk : s.kind with
          | arc a => exact absurd ⟨a, hk⟩ ha
          | _ => rfl
        have e : (m :: (r.take (n + 1) ++ (r.drop (n + 1)).flatMap (replaced curves error))) =
            m :: (r.take n ++ (r.drop n).flatMap (replaced curves error)) := by
          rw [htake, hdrop, List.flatMap_cons, hr, List.append_assoc]
        rw [e]
        cases hk : s.kind with
        | arc a => exact absurd ⟨a, hk⟩ ha
        | _ => simp only [hk]
    unfold approxLoop
    rw [hstep]
    exact ih (by omega)

theorem approx_all {curves : Pt ℝ → Pt ℝ → ArcData ℝ → Option ℤ → List (Seg ℝ)} (hc : Leads curves) {error : ℝ} (he : 0 < error)
    {p : List (Seg ℝ)} (hends : HasEnds p) (hconn : Connected Near p) (h0 : ∀ s, p[0]? = some s → ¬ IsArc s)
    (hs : ∀ s ∈ p, ∀ a, s.kind = .arc a → a.sweep ≠ 0) :
    approxLoop curves error p.length p = .ok (p.flatMap (replaced curves error)) ∧
      Connected Near (p.flatMap (replaced curves error)) ∧ ∀ s ∈ p.flatMap (replaced curves error), ¬ IsArc s := by
  cases p with
  | nil => exact ⟨rfl, hconn, by simp⟩
  | cons m r =>
    have hm := h0 m rfl
    obtain ⟨u, hu, hch⟩ := (connected_iff (R := Near) (S := Near) (s := m) near_refl).mp ⟨hconn, hends⟩
    have hs' : ∀ t ∈ r, ∀ a, t.kind = .arc a → a.sweep ≠ 0 := fun t ht => hs t (by simp [ht])
    have hr : replaced curves error m = [m] := by
      unfold replaced
      cases hk : m.kind with
      | arc a => exact absurd ⟨a, hk⟩ hm
      | _ => rfl
    have hflat : (m :: r).flatMap (replaced curves error) = m :: r.flatMap (replaced curves error) := by
      rw [List.flatMap_cons, hr]; rfl
    rw [hflat]
    refine ⟨?_, ?_, ?_⟩
    · have := approxLoop_eq hc he hm hu hs' hch r.length (le_refl _)
      rw [List.take_length, List.drop_length, List.flatMap_nil, List.append_nil] at this
      exact this
    · exact ((connected_iff (R := Near) (S := Near) (s := m) near_refl).mpr ⟨u, hu, replaced_chain hc he hs' hch⟩).1
    · intro s hmem
      rcases List.mem_cons.mp hmem with rfl | hmem
      · exact hm
      · obtain ⟨t, ht, hst⟩ := List.mem_flatMap.mp hmem
        by_cases ha : IsArc t
        · obtain ⟨a, ha⟩ := ha
          have hn : 0 < ⌈|a.sweep| / (2 * π * error)⌉ := by
            rw [Int.ceil_pos]
            have := abs_pos.mpr (hs' t ht a ha)
            have hpi := pi_pos
            positivity
          have hste : t.start ≠ none ∧ t.stop ≠ none := by
            obtain ⟨l1, l2, hl⟩ := List.append_of_mem ht
            rw [hl, chain_append] at hch
            obtain ⟨v, w, h1, h2, -⟩ := hch.2
            rw [h1, h2]; simp
          obtain ⟨v, hv⟩ := Option.ne_none_iff_exists'.mp hste.1
          obtain ⟨w, hw⟩ := Option.ne_none_iff_exists'.mp hste.2
          have hrt : replaced curves error t = curves v w a (some ⌈|a.sweep| / (2 * π * error)⌉) := by
            unfold replaced; rw [ha, hv, hw]
          rw [hrt] at hst
          obtain ⟨P, p1, -⟩ := hc v w a _ hn
          obtain ⟨i, hi⟩ := List.getElem?_of_mem hst
          rintro ⟨b, hb⟩
          rcases (p1 i s hi).1 with ⟨c, h⟩ | ⟨c, d, h⟩ <;> rw [h] at hb <;> cases hb
        · have hrt : replaced curves error t = [t] := by
            unfold replaced
            cases hk : t.kind with
            | arc a => exact absurd ⟨a, hk⟩ ha
            | _ => rfl
          rw [hrt] at hst
          simp at hst
          rw [hst]; exact ha

/-- C63: in a connected path that does not begin with an arc, with arcs of non-zero sweep, both methods replace each arc by its
curves, change nothing else, and the path stays connected. -/
theorem C63_replace {error : ℝ} (he : 0 < error) {p : List (Seg ℝ)} (hends : HasEnds p) (hconn : Connected Near p)
    (h0 : ∀ s, p[0]? = some s → ¬ IsArc s) (hs : ∀ s ∈ p, ∀ a, s.kind = .arc a → a.sweep ≠ 0) :
    (approximateWithCubics error p = .ok (p.flatMap (replaced asCubicCurves error)) ∧
      Connected Near (p.flatMap (replaced asCubicCurves error)) ∧ ∀ s ∈ p.flatMap (replaced asCubicCurves error), ¬ IsArc s) ∧
    (approximateWithQuads error p = .ok (p.flatMap (replaced asQuadCurves error)) ∧
      Connected Near (p.flatMap (replaced asQuadCurves error)) ∧ ∀ s ∈ p.flatMap (replaced asQuadCurves error), ¬ IsArc s) :=
  ⟨approx_all leads_cubics he hends hconn h0 hs, approx_all leads_quads he hends hconn h0 hs⟩

example : ∃ p : List (Seg ℝ), p.length = 3 ∧ HasEnds p ∧ Connected Near p ∧ (∀ s, p[0]? = some s → ¬ IsArc s) ∧
    (∃ s ∈ p, IsArc s) ∧ ∀ s ∈ p, ∀ a, s.kind = .arc a → a.sweep ≠ 0 := by
  have hpi := pi_pos
  obtain ⟨s1, s2, s3, h1, h2, h3⟩ : ∃ s1 s2 s3 : Seg ℝ, s1 = ⟨.move, none, some ⟨1, 0⟩, false, true⟩ ∧
    s2 = ⟨.arc { center := ⟨0, 0⟩, prx := ⟨1, 0⟩, pry := ⟨0, 1⟩, sweep := π / 2 }, some ⟨1, 0⟩, some ⟨0, 1⟩, false, true⟩ ∧
    s3 = ⟨.close, some ⟨0, 1⟩, some ⟨1, 0⟩, false, true⟩ := ⟨_, _, _, rfl, rfl, rfl⟩
  have hc : Chain Near Near ⟨1, 0⟩ ⟨1, 0⟩ [s2, s3] := by
    subst h2 h3
    refine ⟨_, _, rfl, rfl, near_refl _, by simp [Seg.isClose], ?_⟩
    exact ⟨_, _, rfl, rfl, near_refl _, fun _ => near_refl _, trivial⟩
  have hh := (connected_iff (R := Near) (S := Near) (s := s1) near_refl).mpr ⟨⟨1, 0⟩, by rw [h1], hc⟩
  refine ⟨[s1, s2, s3], rfl, hh.2, hh.1, ?_, ⟨s2, by simp, ?_⟩, ?_⟩
  · rintro s hs ⟨a, ha⟩
    simp at hs
    rw [← hs, h1] at ha
    cases ha
  · subst h2; exact ⟨_, rfl⟩
  · intro s hs a ha
    simp only [List.mem_cons, List.not_mem_nil, or_false] at hs
    rcases hs with rfl | rfl | rfl
    · rw [h1] at ha; cases ha
    · rw [h2] at ha; cases ha; simp only; positivity
    · rw [h3] at ha; cases ha

/-- an arc with sweep 0, as from a zero radius, is dropped, and with it its line: the gap is closed by moving the start of the
next segment -/
theorem C63_zero_sweep_wrong : approximateWithCubics 1
    [⟨.move, none, some ⟨0, 0⟩, false, true⟩,
     ⟨.arc (svgParameterize ⟨0, 0⟩ 0 1 0 false false ⟨1, 0⟩), some ⟨0, 0⟩, some ⟨1, 0⟩, false, true⟩,
     ⟨.line, some ⟨1, 0⟩, some ⟨1, 1⟩, false, true⟩] =
    .ok [⟨.move, none, some ⟨0, 0⟩, false, true⟩, ⟨.line, some ⟨0, 0⟩, some ⟨1, 1⟩, false, true⟩] := by
  have hpi := pi_pos
  have h1 : svgParameterize ⟨0, 0⟩ 0 1 0 false false ⟨1, 0⟩ = { center := ⟨0, 0⟩, prx := ⟨0, 0⟩, pry := ⟨0, 0⟩, sweep := 0 } := by
    unfold svgParameterize
    rw [if_pos (by right; left; rfl)]
  rw [h1]
  have h2 : tau ≠ 0 := by unfold tau; positivity
  have h3 : ((⟨0, 0⟩ : Pt ℝ).eq ⟨1, 0⟩) = false := by norm_num [Pt.eq, err]
  simp [approximateWithCubics, approxLoop, approxStep, h2, asCubicCurves, arcRequired, Path.validateConnections, Path.vcGo,
    Path.link, Seg.isMove, Seg.isClose, h3, optEq]

end Svgio.Arc
