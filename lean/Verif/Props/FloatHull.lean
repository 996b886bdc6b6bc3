import Verif.Model.FloatHull
import Verif.Props.FloatEnds
import Verif.Props.Hull

/-!
C144: `Point.convex_hull` with floats.
-/

namespace Svgio.Props

open Spec

theorem flScan_mem (F : FloatRounding) (p : Pt ℚ) : ∀ (l : List (Pt ℚ)) (e : Pt ℚ),
    l.foldl (Flt.scanStep F p) e = e ∨ l.foldl (Flt.scanStep F p) e ∈ l
  | [], e => Or.inl rfl
  | t :: l, e => by
    rw [List.foldl_cons]
    rcases flScan_mem F p l (Flt.scanStep F p e t) with h | h
    · rw [h]
      unfold Flt.scanStep
      split_ifs
      · right; simp
      · left; rfl
    · right; exact List.mem_cons_of_mem _ h

theorem flNext_mem (F : FloatRounding) {p : Pt ℚ} {l : List (Pt ℚ)} (h : p ∈ l) : Flt.hullNext F p l ∈ l := by
  unfold Flt.hullNext
  rcases flScan_mem F p l p with h' | h'
  · rw [h']; exact h
  · exact h'

theorem flLoop_mem (F : FloatRounding) {f : Pt ℚ} {l : List (Pt ℚ)} : ∀ (n : ℕ) (p : Pt ℚ) (h : List (Pt ℚ)), p ∈ l →
    Flt.hullLoop F f l n p = some h → h.head? = some p ∧ ∀ a ∈ h, a ∈ l
  | 0, p, h, _, e => by simp [Flt.hullLoop] at e
  | n + 1, p, h, hp, e => by
    rw [Flt.hullLoop] at e
    split_ifs at e with hq
    · cases e
      exact ⟨rfl, fun a ha => by simpa using (List.mem_singleton.1 ha) ▸ hp⟩
    · obtain ⟨h', e', rfl⟩ := Option.map_eq_some_iff.1 e
      refine ⟨rfl, fun a ha => ?_⟩
      rcases List.mem_cons.1 ha with rfl | ha
      · exact hp
      · exact (flLoop_mem F n _ h' (flNext_mem F hp) e').2 a ha

/-- **C144**, whatever the rounding: when the walk ends, it has yielded input points only, and the first of them has the smallest x. That
it ends is false (`C144_endless_wrong`). -/
theorem C144_members_partial (F : FloatRounding) {pts points h : List (Pt ℚ)} {fuel : ℕ} (hp : SortedSet pts points)
    (hh : Flt.convexHull F fuel points = some h) :
    (∀ a ∈ h, a ∈ pts) ∧ ∀ a ∈ h.head?, ∀ b ∈ pts, a.x ≤ b.x := by
  obtain ⟨hm, -, hs⟩ := hp
  match points, hm, hs, hh with
  | [], _, _, hh => cases hh; simp
  | f :: r, hm, hs, hh =>
    obtain ⟨h1, h2⟩ := flLoop_mem F fuel f h (by simp) hh
    refine ⟨fun a ha => (hm a).1 (h2 a ha), ?_⟩
    rw [h1]
    rintro a ⟨⟩ b hb
    rcases List.mem_cons.1 ((hm b).2 hb) with rfl | hb
    · exact le_rfl
    · exact (List.pairwise_cons.1 hs).1 b hb

/-- the coordinates of the point are whole multiples of `2 ^ m`, at most `2 ^ 25` of them -/
def OnGrid (m : ℤ) (p : Pt ℚ) : Prop :=
  (∃ k : ℤ, |k| ≤ 2 ^ 25 ∧ p.x = k * 2 ^ m) ∧ ∃ k : ℤ, |k| ≤ 2 ^ 25 ∧ p.y = k * 2 ^ m

theorem fl_grid {m : ℤ} (hm : -1074 ≤ m) {k : ℤ} (hk : |k| ≤ 2 ^ 53) : doubles.fl (k * 2 ^ m) = k * 2 ^ m :=
  roundDouble_double ⟨k, m, rfl, hk, hm⟩

theorem turn_grid {m : ℤ} (hm : -537 ≤ m) {p q r : Pt ℚ} (hp : OnGrid m p) (hq : OnGrid m q) (hr : OnGrid m r) :
    Flt.turn doubles p q r = (q.y - p.y) * (r.x - q.x) - (q.x - p.x) * (r.y - q.y) := by
  obtain ⟨⟨a, ha, ea⟩, b, hb, eb⟩ := hp
  obtain ⟨⟨c, hc, ec⟩, d, hd, ed⟩ := hq
  obtain ⟨⟨e, he, ee⟩, f, hf, ef⟩ := hr
  have sub : ∀ u v : ℤ, |u| ≤ 2 ^ 25 → |v| ≤ 2 ^ 25 →
      |u - v| ≤ 2 ^ 26 ∧ doubles.fl ((u : ℚ) * 2 ^ m - v * 2 ^ m) = ((u - v : ℤ) : ℚ) * 2 ^ m := by
    intro u v hu hv
    have h : |u - v| ≤ 2 ^ 26 := (abs_sub u v).trans (by linarith [(by norm_num : (2 : ℤ) ^ 26 = 2 ^ 25 + 2 ^ 25)])
    refine ⟨h, ?_⟩
    rw [← sub_mul, ← Int.cast_sub, fl_grid (by omega) (h.trans (by norm_num))]
  have mul : ∀ u v : ℤ, |u| ≤ 2 ^ 26 → |v| ≤ 2 ^ 26 →
      |u * v| ≤ 2 ^ 52 ∧ doubles.fl (((u : ℚ) * 2 ^ m) * (v * 2 ^ m)) = ((u * v : ℤ) : ℚ) * 2 ^ (2 * m) := by
    intro u v hu hv
    have h : |u * v| ≤ 2 ^ 52 := by
      rw [abs_mul]
      exact (mul_le_mul hu hv (abs_nonneg _) (by norm_num)).trans (by norm_num)
    refine ⟨h, ?_⟩
    have e : ((u : ℚ) * 2 ^ m) * (v * 2 ^ m) = ((u * v : ℤ) : ℚ) * 2 ^ (2 * m) := by
      rw [two_mul, zpow_add₀ (by norm_num)]; push_cast; ring
    rw [e, fl_grid (by omega) (h.trans (by norm_num))]
  unfold Flt.turn
  rw [ea, eb, ec, ed, ee, ef, (sub d b hd hb).2, (sub e c he hc).2, (sub c a hc ha).2, (sub f d hf hd).2]
  obtain ⟨h1, e1⟩ := mul (d - b) (e - c) (sub d b hd hb).1 (sub e c he hc).1
  obtain ⟨h2, e2⟩ := mul (c - a) (f - d) (sub c a hc ha).1 (sub f d hf hd).1
  rw [e1, e2, ← sub_mul, ← Int.cast_sub, fl_grid (by omega)
    ((abs_sub _ _).trans (by linarith [(by norm_num : (2 : ℤ) ^ 53 = 2 ^ 52 + 2 ^ 52)]))]
  rw [two_mul, zpow_add₀ (by norm_num)]
  push_cast
  ring

theorem scan_grid {m : ℤ} (hm : -537 ≤ m) {p : Pt ℚ} (hp : OnGrid m p) : ∀ (l : List (Pt ℚ)) (e : Pt ℚ), OnGrid m e →
    (∀ t ∈ l, OnGrid m t) → l.foldl (Flt.scanStep doubles p) e = l.foldl (Pt.scanStep p) e
  | [], e, _, _ => rfl
  | t :: l, e, he, hl => by
    have ht := hl t (by simp)
    have hs : Flt.scanStep doubles p e t = Pt.scanStep p e t := by
      unfold Flt.scanStep Pt.scanStep Flt.orientation Pt.orientation
      rw [turn_grid hm hp ht he]
    rw [List.foldl_cons, List.foldl_cons, hs]
    refine scan_grid hm hp l _ ?_ fun t' h' => hl t' (List.mem_cons_of_mem _ h')
    unfold Pt.scanStep
    split_ifs
    · exact ht
    · exact he

theorem loop_grid {m : ℤ} (hm : -537 ≤ m) {f : Pt ℚ} {l : List (Pt ℚ)} (hl : ∀ t ∈ l, OnGrid m t) :
    ∀ (n : ℕ) (p : Pt ℚ), p ∈ l → Flt.hullLoop doubles f l n p = Pt.hullLoop f l n p
  | 0, _, _ => rfl
  | n + 1, p, hp => by
    have hn : Flt.hullNext doubles p l = Pt.hullNext p l := scan_grid hm (hl p hp) l p (hl p hp) hl
    have hq : Pt.hullNext p l ∈ l := hn ▸ flNext_mem doubles hp
    rw [Flt.hullLoop, Pt.hullLoop, hn, loop_grid hm hl n _ hq]

/-- **C144** for points on a grid, such as whole numbers up to 33 millions: with doubles the walk ends, it yields input points only, no
point twice, and it yields some point when there is one; when no line through the first point has two other input points, every input
point lies on the same side of every edge or on it. Missing: points on no such grid, for which the walk may never end
(`C144_endless_wrong`), and collinear ones (`C22_collinear_wrong`). -/
theorem C144_grid_partial {pts points : List (Pt ℚ)} {m : ℤ} (hm : -537 ≤ m) (hg : ∀ p ∈ pts, OnGrid m p) (hp : SortedSet pts points) :
    ∃ h, (∀ fuel, points.length < fuel → Flt.convexHull doubles fuel points = some h) ∧ (∀ a ∈ h, a ∈ pts) ∧ h.Nodup ∧
      (pts ≠ [] → h ≠ []) ∧
      ((∀ f ∈ points.head?, ∀ a ∈ pts, ∀ b ∈ pts, a ≠ f → b ≠ f → a ≠ b → ¬ Collinear f a b) →
        ∀ ab ∈ edges h, ∀ t ∈ pts, 0 ≤ area2 ab.1 ab.2 t) := by
  have e : ∀ fuel, Flt.convexHull doubles fuel points = Pt.convexHull fuel points := by
    intro fuel
    have hl : ∀ p ∈ points, OnGrid m p := fun p h => hg p ((hp.1 p).1 h)
    cases points with
    | nil => rfl
    | cons f r => exact loop_grid hm hl fuel f (by simp)
  obtain ⟨h, h1, h2, h3, h4⟩ := C22_terminates_partial hp
  exact ⟨h, fun fuel hf => (e fuel).trans (h1 fuel hf), h2, h3, h4,
    fun hc => C22_sides_partial hp hc (h1 (points.length + 1) (Nat.lt_succ_self _))⟩

/-- halves are on the grid, and the theorem is not about empty lists -/
example : (∀ p ∈ [(⟨0, 1 / 2⟩ : Pt ℚ), ⟨3 / 2, 7⟩, ⟨4, -5 / 2⟩], OnGrid (-1) p) ∧
    SortedSet [(⟨0, 1 / 2⟩ : Pt ℚ), ⟨3 / 2, 7⟩, ⟨4, -5 / 2⟩] [⟨0, 1 / 2⟩, ⟨3 / 2, 7⟩, ⟨4, -5 / 2⟩] := by
  refine ⟨?_, fun _ => Iff.rfl, by decide +kernel, by decide +kernel⟩
  simp only [List.mem_cons, List.not_mem_nil, or_false]
  rintro p (rfl | rfl | rfl)
  · exact ⟨⟨0, by norm_num, by norm_num⟩, 1, by norm_num, by norm_num⟩
  · exact ⟨⟨3, by norm_num, by norm_num⟩, 14, by norm_num, by norm_num⟩
  · exact ⟨⟨8, by norm_num, by norm_num⟩, -5, by norm_num, by norm_num⟩

/-- four points: two near `(1048576, 1048576)`, `(12582912, 12582912)` and `(25165824, 25165824)` -/
def endless : List (Pt ℚ) :=
  [⟨1048576 + 21 / 2 ^ 32, 1048576 + 24 / 2 ^ 32⟩, ⟨1048576 + 31 / 2 ^ 32, 1048576 + 35 / 2 ^ 32⟩, ⟨12582912, 12582912⟩,
    ⟨25165824, 25165824⟩]

theorem endless_cycle : ∀ n, 
    Flt.hullLoop doubles ⟨1048576 + 21 / 2 ^ 32, 1048576 + 24 / 2 ^ 32⟩ endless n ⟨1048576 + 31 / 2 ^ 32, 1048576 + 35 / 2 ^ 32⟩ = none ∧
    Flt.hullLoop doubles ⟨1048576 + 21 / 2 ^ 32, 1048576 + 24 / 2 ^ 32⟩ endless n ⟨25165824, 25165824⟩ = none
  | 0 => ⟨rfl, rfl⟩
  | n + 1 => by
    have h1 : Flt.hullNext doubles ⟨1048576 + 31 / 2 ^ 32, 1048576 + 35 / 2 ^ 32⟩ endless = ⟨25165824, 25165824⟩ := by decide +kernel
    have h2 : Flt.hullNext doubles ⟨25165824, 25165824⟩ endless = ⟨1048576 + 31 / 2 ^ 32, 1048576 + 35 / 2 ^ 32⟩ := by decide +kernel
    obtain ⟨i1, i2⟩ := endless_cycle n
    constructor
    · rw [Flt.hullLoop, h1]
      rw [if_neg (by decide +kernel), i2]
      rfl
    · rw [Flt.hullLoop, h2]
      rw [if_neg (by decide +kernel), i1]
      rfl

/-- With doubles the walk may never end: there are four points whose coordinates are doubles, any two of them more than 1e-9 apart in each
coordinate, for which `convex_hull` yields points for ever. It comes back to two of the points in turn and never to the first. -/
theorem C144_endless_wrong :
    ∃ pts points : List (Pt ℚ), SortedSet pts points ∧ (∀ p ∈ pts, IsDouble p.x ∧ IsDouble p.y) ∧
      pts.Pairwise (fun a b => 1 / 10 ^ 9 < |a.x - b.x| ∧ 1 / 10 ^ 9 < |a.y - b.y|) ∧
      ∀ fuel, Flt.convexHull doubles fuel points = none := by
  refine ⟨endless, endless, ⟨fun _ => Iff.rfl, by decide +kernel, by decide +kernel⟩, ?_, by decide +kernel, ?_⟩
  · unfold endless
    simp only [List.mem_cons, List.not_mem_nil, or_false]
    rintro p (rfl | rfl | rfl | rfl)
    · exact ⟨⟨1048576 * 2 ^ 32 + 21, -32, by norm_num, by norm_num, by norm_num⟩, 1048576 * 2 ^ 32 + 24, -32, by norm_num,
        by norm_num, by norm_num⟩
    · exact ⟨⟨1048576 * 2 ^ 32 + 31, -32, by norm_num, by norm_num, by norm_num⟩, 1048576 * 2 ^ 32 + 35, -32, by norm_num,
        by norm_num, by norm_num⟩
    · exact ⟨⟨12582912, 0, by norm_num, by norm_num, by norm_num⟩, 12582912, 0, by norm_num, by norm_num, by norm_num⟩
    · exact ⟨⟨25165824, 0, by norm_num, by norm_num, by norm_num⟩, 25165824, 0, by norm_num, by norm_num, by norm_num⟩
  · have h : Flt.hullNext doubles ⟨1048576 + 21 / 2 ^ 32, 1048576 + 24 / 2 ^ 32⟩ endless =
        ⟨1048576 + 31 / 2 ^ 32, 1048576 + 35 / 2 ^ 32⟩ := by decide +kernel
    intro fuel
    change Flt.hullLoop doubles ⟨1048576 + 21 / 2 ^ 32, 1048576 + 24 / 2 ^ 32⟩ endless fuel
      ⟨1048576 + 21 / 2 ^ 32, 1048576 + 24 / 2 ^ 32⟩ = none
    cases fuel with
    | zero => rfl
    | succ n =>
      rw [Flt.hullLoop, h]
      rw [if_neg (by decide +kernel), (endless_cycle n).1]
      rfl

end Svgio.Props
