import Verif.Lemmas.HullRun

/-!
C22: `Point.convex_hull`.

The list `points` of the code has the different input points in order of x, points with the same x in any order.
-/

namespace Svgio.Props

open Spec
open Pt hiding convexHull

section
variable {K : Type} [Field K] [LinearOrder K] [IsStrictOrderedRing K]

/-- `points` is a possible value of `sorted(set(pts), key=lambda p: p[0])` -/
def SortedSet (pts points : List (Pt K)) : Prop :=
  (∀ p, p ∈ points ↔ p ∈ pts) ∧ points.Nodup ∧ points.Pairwise (fun a b => a.x ≤ b.x)

theorem foldl_scan_mem (p : Pt K) : ∀ (l : List (Pt K)) (e : Pt K),
    l.foldl (scanStep p) e = e ∨ l.foldl (scanStep p) e ∈ l
  | [], e => Or.inl rfl
  | t :: l, e => by
    rw [List.foldl_cons]
    rcases foldl_scan_mem p l (scanStep p e t) with h | h
    · rw [h]
      unfold scanStep
      split_ifs
      · right; simp
      · left; rfl
    · right; exact List.mem_cons_of_mem _ h

theorem hullNext_mem {p : Pt K} {l : List (Pt K)} (h : p ∈ l) : hullNext p l ∈ l := by
  rw [hullNext_eq]
  rcases foldl_scan_mem p l p with h' | h'
  · rw [h']; exact h
  · exact h'

theorem hullLoop_forall {f : Pt K} {l : List (Pt K)} {P : Pt K → Prop}
    (hP : ∀ a, P a → f ≠ hullNext a l → P (hullNext a l)) :
    ∀ (n : ℕ) (p : Pt K) (h : List (Pt K)), hullLoop f l n p = some h → P p → ∀ a ∈ h, P a
  | 0, p, h, hh, _ => by simp [hullLoop] at hh
  | n + 1, p, h, hh, hp => by
    simp only [hullLoop] at hh
    split_ifs at hh with h1
    · simp at hh; subst hh; intro a ha; rw [List.mem_singleton] at ha; exact ha ▸ hp
    · obtain ⟨h', hh', rfl⟩ := Option.map_eq_some_iff.1 hh
      intro a ha
      rcases List.mem_cons.1 ha with rfl | ha
      · exact hp
      · exact hullLoop_forall hP n _ h' hh' (hP p hp h1) a ha

theorem hullLoop_edges {f : Pt K} {l : List (Pt K)} :
    ∀ (n : ℕ) (p : Pt K) (h : List (Pt K)), hullLoop f l n p = some h →
      (∃ r, h = p :: r) ∧ ∀ ab ∈ h.zip (h.tail ++ [f]), ab.2 = hullNext ab.1 l
  | 0, p, h, hh => by simp [hullLoop] at hh
  | n + 1, p, h, hh => by
    simp only [hullLoop] at hh
    split_ifs at hh with h1
    · simp at hh; subst hh; simpa using h1
    · obtain ⟨h', hh', rfl⟩ := Option.map_eq_some_iff.1 hh
      refine ⟨⟨h', rfl⟩, ?_⟩
      obtain ⟨⟨r, hr⟩, he⟩ := hullLoop_edges n _ h' hh'
      intro ab hab
      rw [hr] at hab he
      simp only [List.tail_cons, List.cons_append, List.zip_cons_cons, List.mem_cons] at hab he
      rcases hab with rfl | hab
      · rfl
      · exact he ab hab

open Classical in
theorem hullLoop_terminates {f : Pt K} {r : List (Pt K)} (hx : ∀ t ∈ f :: r, f.x ≤ t.x) :
    ∀ (m : ℕ) (p : Pt K), p ∈ r → p ≠ f → Turn f (f :: r) (Before (f :: r)) p →
      ((f :: r).toFinset.filter (Higher f p)).card ≤ m →
      ∃ h, (∀ n, m < n → hullLoop f (f :: r) n p = some h) ∧ h.Nodup ∧
        ∀ a ∈ h, a ∈ r ∧ a ≠ f ∧ (a = p ∨ Higher f p a)
  | m, p, hpr, hp, hT, hm => by
    have hpl : p ∈ f :: r := List.mem_cons_of_mem _ hpr
    rcases scan_result hp hT with ⟨hq, -⟩ | ⟨hql, hup, hA, hB⟩
    · refine ⟨[p], ?_, by simp, ?_⟩
      · intro n hn
        obtain ⟨n, rfl⟩ : ∃ k, n = k + 1 := ⟨n - 1, by omega⟩
        simp [hullLoop, hq]
      · intro a ha; rw [List.mem_singleton] at ha; subst ha; exact ⟨hpr, hp, Or.inl rfl⟩
    · generalize hqd : hullNext p (f :: r) = q at hql hup hA hB
      have hqf : q ≠ f := by
        rintro rfl
        rcases hup with h | ⟨k, hk, h1, h2⟩
        · simp only [area2] at h; simp at h
        · have e1 : (1 + k) * (p.x - q.x) = 0 := by linear_combination -h1
          have e2 : (1 + k) * (p.y - q.y) = 0 := by linear_combination -h2
          have hk' : (1 + k : K) ≠ 0 := by linarith
          exact hp (Pt.ext (sub_eq_zero.1 ((mul_eq_zero.1 e1).resolve_left hk'))
            (sub_eq_zero.1 ((mul_eq_zero.1 e2).resolve_left hk')))
      have hqr : q ∈ r := (List.mem_cons.1 hql).resolve_left hqf
      have hhi := up_higher hp (hx p hpl) hqf (hx q hql) hup
      have hT' : Turn f (f :: r) (Before (f :: r)) q :=
        turn_up hx hpl hql hp hT hup hA (fun t _ e _ hb hbe h1 => hB t e hb hbe h1)
      have hlt : ((f :: r).toFinset.filter (Higher f q)).card < ((f :: r).toFinset.filter (Higher f p)).card := by
        apply Finset.card_lt_card
        rw [Finset.ssubset_iff_of_subset]
        · exact ⟨q, by simp only [Finset.mem_filter, List.mem_toFinset]; exact ⟨hql, hhi⟩,
            by simp only [Finset.mem_filter]; exact fun h => higher_irrefl h.2⟩
        · intro t ht
          simp only [Finset.mem_filter] at ht ⊢
          exact ⟨ht.1, higher_trans hhi ht.2⟩
      match m, hm with
      | 0, hm => omega
      | m + 1, hm =>
        obtain ⟨h, h1, h2, h3⟩ := hullLoop_terminates hx m q hqr hqf hT' (by omega)
        refine ⟨p :: h, ?_, ?_, ?_⟩
        · intro n hn
          obtain ⟨n, rfl⟩ : ∃ k, n = k + 1 := ⟨n - 1, by omega⟩
          simp only [hullLoop, hqd, if_neg hqf.symm, h1 n (by omega), Option.map_some]
        · rw [List.nodup_cons]
          refine ⟨fun hc => ?_, h2⟩
          rcases (h3 p hc).2.2 with h4 | h4
          · exact higher_irrefl (h4 ▸ hhi)
          · exact higher_irrefl (higher_trans hhi h4)
        · intro a ha
          rcases List.mem_cons.1 ha with rfl | ha
          · exact ⟨hpr, hp, Or.inl rfl⟩
          · obtain ⟨h5, h6, h7⟩ := h3 a ha
            refine ⟨h5, h6, Or.inr ?_⟩
            rcases h7 with rfl | h7
            · exact hhi
            · exact higher_trans hhi h7

theorem hull_exists {points : List (Pt K)} (hn : points.Nodup) (hs : points.Pairwise (fun a b => a.x ≤ b.x)) :
    ∃ h, (∀ fuel, points.length < fuel → Pt.convexHull fuel points = some h) ∧ h.Nodup ∧ (∀ a ∈ h, a ∈ points) ∧
      (points ≠ [] → h.head? = points.head?) := by
  classical
  match points, hn, hs with
  | [], _, _ => exact ⟨[], by simp [Pt.convexHull]⟩
  | [f], _, _ =>
    refine ⟨[f], ?_, by simp⟩
    intro n hn
    obtain ⟨n, rfl⟩ : ∃ k, n = k + 1 := ⟨n - 1, by simp at hn; omega⟩
    simp [Pt.convexHull, hullLoop, hullNext, scanStep]
  | f :: a :: r, hn, hs =>
    have hf : ∀ t ∈ a :: r, t ≠ f := fun t ht h => (List.nodup_cons.1 hn).1 (h ▸ ht)
    have hx' := (List.pairwise_cons.1 hs).1
    have hx : ∀ t ∈ f :: a :: r, f.x ≤ t.x := by
      intro t ht
      rcases List.mem_cons.1 ht with rfl | ht
      · exact le_rfl
      · exact hx' t ht
    have hI := first_result (List.pairwise_cons.1 hs).2 hx' hf
    have hT := first_turn hs hI
    generalize hqd : hullNext f (f :: a :: r) = q at hI hT
    have hqf := hf q hI.1
    have hcard : ((f :: a :: r).toFinset.filter (Higher f q)).card ≤ (a :: r).length := by
      calc _ ≤ ((f :: a :: r).toFinset.erase q).card := by
            apply Finset.card_le_card
            intro t ht
            simp only [Finset.mem_filter] at ht
            rw [Finset.mem_erase]
            exact ⟨fun h => higher_irrefl (h ▸ ht.2), ht.1⟩
        _ = (f :: a :: r).toFinset.card - 1 := Finset.card_erase_of_mem (by
            rw [List.mem_toFinset]; exact List.mem_cons_of_mem _ hI.1)
        _ ≤ _ := by
            have := List.toFinset_card_le (f :: a :: r)
            simp only [List.length_cons] at this ⊢
            omega
    obtain ⟨h, h1, h2, h3⟩ := hullLoop_terminates hx _ q hI.1 hqf hT hcard
    refine ⟨f :: h, ?_, ?_, ?_, by simp⟩
    · intro n hn
      obtain ⟨n, rfl⟩ : ∃ k, n = k + 1 := ⟨n - 1, by omega⟩
      simp only [Pt.convexHull, hullLoop, hqd, if_neg hqf.symm, h1 n (by simp at hn ⊢; omega), Option.map_some]
    · rw [List.nodup_cons]
      exact ⟨fun hc => (h3 f hc).2.1 rfl, h2⟩
    · intro b hb
      rcases List.mem_cons.1 hb with rfl | hb
      · simp
      · exact List.mem_cons_of_mem _ (h3 b hb).1

/-- **C22**, for all inputs: the walk ends, it yields input points only, no point twice, and it yields some point when
there is one. Missing from the property: that the points lie on one side of every edge, which is false with
collinear points (`C22_collinear_wrong`); see `C22_sides_partial`. -/
theorem C22_terminates_partial {pts points : List (Pt K)} (hp : SortedSet pts points) :
    ∃ h, (∀ fuel, points.length < fuel → Pt.convexHull fuel points = some h) ∧ (∀ a ∈ h, a ∈ pts) ∧ h.Nodup ∧
      (pts ≠ [] → h ≠ []) := by
  obtain ⟨h, h1, h2, h3, h4⟩ := hull_exists hp.2.1 hp.2.2
  refine ⟨h, h1, fun a ha => (hp.1 a).1 (h3 a ha), h2, ?_⟩
  rintro hne rfl
  obtain ⟨a, r, rfl⟩ := List.exists_cons_of_ne_nil hne
  have ha := (hp.1 a).2 (by simp)
  have h5 := h4 (List.ne_nil_of_mem ha)
  cases points with
  | nil => simp at ha
  | cons b l => simp at h5

theorem area2_zero_iff {a b c : Pt K} : area2 a b c = 0 ↔ Collinear a b c := by
  constructor
  · intro h
    by_cases hab : a = b
    · subst hab
      by_cases hac : a = c
      · subst hac
        exact ⟨1, 0, a.x, by simp, by ring, by ring, by ring⟩
      · refine ⟨c.y - a.y, a.x - c.x, (c.y - a.y) * a.x + (a.x - c.x) * a.y, ?_, rfl, rfl, by ring⟩
        by_contra hc
        push Not at hc
        exact hac (Pt.ext (by linear_combination hc.2) (by linear_combination -hc.1))
    · refine ⟨b.y - a.y, a.x - b.x, (b.y - a.y) * a.x + (a.x - b.x) * a.y, ?_, rfl, by ring, ?_⟩
      · by_contra hc
        push Not at hc
        exact hab (Pt.ext (by linear_combination hc.2) (by linear_combination -hc.1))
      · simp only [area2] at h
        linear_combination -h
  · rintro ⟨u, v, w, h0, h1, h2, h3⟩
    have e1 : u * (b.x - a.x) + v * (b.y - a.y) = 0 := by linear_combination h2 - h1
    have e2 : u * (c.x - a.x) + v * (c.y - a.y) = 0 := by linear_combination h3 - h1
    simp only [area2]
    rcases h0 with h0 | h0
    · apply ((mul_eq_zero (a := u)).1 ?_).resolve_left h0
      linear_combination (c.y - a.y) * e1 - (b.y - a.y) * e2
    · apply ((mul_eq_zero (a := v)).1 ?_).resolve_left h0
      linear_combination (b.x - a.x) * e2 - (c.x - a.x) * e1

/-- what a step does when no two other points are on a line with the first -/
theorem step_sides {f p : Pt K} {r : List (Pt K)} (hx : ∀ t ∈ f :: r, f.x ≤ t.x) (hpr : p ∈ r) (hp : p ≠ f)
    (hg : ∀ a ∈ r, ∀ b ∈ r, a ≠ f → b ≠ f → a ≠ b → area2 f a b ≠ 0)
    (hT : Turn f (f :: r) (fun _ _ => True) p) :
    (∀ t ∈ f :: r, 0 ≤ area2 p (hullNext p (f :: r)) t) ∧
      (f ≠ hullNext p (f :: r) → hullNext p (f :: r) ∈ r ∧ Turn f (f :: r) (fun _ _ => True) (hullNext p (f :: r))) := by
  have hpl : p ∈ f :: r := List.mem_cons_of_mem _ hpr
  have hT0 : Turn f (f :: r) (Before (f :: r)) p := fun t ht e he _ => hT t ht e he trivial
  have hql := hullNext_mem hpl
  have hzero : ∀ t ∈ f :: r, area2 f p t = 0 → t = f ∨ t = p := by
    intro t ht h
    by_contra hc
    push Not at hc
    exact hg p hpr t ((List.mem_cons.1 ht).resolve_left hc.1) hp hc.1 (Ne.symm hc.2) h
  rcases scan_result hp hT0 with ⟨hq, h0⟩ | ⟨-, hup, hA, -⟩
  · rw [hq]
    refine ⟨fun t ht => ?_, fun h => absurd rfl h⟩
    have : area2 p f t = - area2 f p t := by simp only [area2]; ring
    rw [this]
    linarith [h0 t ht]
  · generalize hqd : hullNext p (f :: r) = q at hql hup hA
    have hnb : ∀ t ∈ f :: r, ¬ Beyond f p t := by
      intro t ht hb
      have hne := up_ne hp (Or.inr hb : Up f p t)
      rcases hzero t ht (beyond_area hb) with rfl | rfl
      · obtain ⟨k, hk, h1, h2⟩ := hb
        have e1 : (1 + k) * (p.x - t.x) = 0 := by linear_combination -h1
        have e2 : (1 + k) * (p.y - t.y) = 0 := by linear_combination -h2
        have hk' : (1 + k : K) ≠ 0 := by linarith
        exact hp (Pt.ext (sub_eq_zero.1 ((mul_eq_zero.1 e1).resolve_left hk'))
          (sub_eq_zero.1 ((mul_eq_zero.1 e2).resolve_left hk')))
      · exact hne rfl
    have hpos : 0 < area2 f p q := hup.resolve_right (hnb q hql)
    refine ⟨fun t ht => ?_, fun hqf => ⟨(List.mem_cons.1 hql).resolve_left hqf.symm, ?_⟩⟩
    · rcases lt_trichotomy (area2 f p t) 0 with h | h | h
      · have := hT t ht q hql trivial h hup
        have e : area2 p q t = - area2 p t q := by simp only [area2]; ring
        rw [e]; linarith
      · rcases hzero t ht h with rfl | rfl
        · have e : area2 p q t = area2 t p q := by simp only [area2]; ring
          rw [e]; exact hpos.le
        · simp only [area2]; apply le_of_eq; ring
      · exact hA t ht h
    · exact turn_up hx hpl hql hp hT hup hA (fun t ht _ _ _ hb _ => absurd hb (hnb t ht))

theorem first_sides {f : Pt K} {r : List (Pt K)} (hx : ∀ t ∈ r, f.x ≤ t.x) (hf : ∀ t ∈ r, t ≠ f)
    (hg : ∀ a ∈ r, ∀ b ∈ r, a ≠ f → b ≠ f → a ≠ b → area2 f a b ≠ 0) :
    ∀ (post pre : List (Pt K)) (e : Pt K), r = pre ++ post → e ∈ pre → (∀ s ∈ pre, 0 ≤ area2 f e s) →
      post.foldl (scanStep f) e ∈ r ∧ ∀ s ∈ r, 0 ≤ area2 f (post.foldl (scanStep f) e) s
  | [], pre, e, hl, he, hI => by rw [List.append_nil] at hl; rw [hl]; exact ⟨he, hI⟩
  | t :: post, pre, e, hl, he, hI => by
    rw [List.foldl_cons]
    have her : e ∈ r := by rw [hl]; simp [he]
    have htr : t ∈ r := by rw [hl]; simp
    refine first_sides hx hf hg post (pre ++ [t]) _ (by simp [hl]) ?_ ?_ <;>
      rw [scanStep_of_ne (hf e her).symm]
    · split_ifs <;> simp [he]
    · intro s hs
      split_ifs with h
      · rcases List.mem_append.1 hs with hs | hs
        · have hsr : s ∈ r := by rw [hl]; simp [hs]
          by_cases hse : s = e
          · rw [hse]; exact h.le
          have h1 : 0 < area2 f e s :=
            lt_of_le_of_ne (hI s hs) (Ne.symm (hg e her s hsr (hf e her) (hf s hsr) (Ne.symm hse)))
          have id : (e.x - f.x) * area2 f t s = (t.x - f.x) * area2 f e s + (s.x - f.x) * area2 f t e := by
            simp only [area2]; ring
          have n1 := mul_nonneg (sub_nonneg.2 (hx t htr)) h1.le
          have n2 := mul_nonneg (sub_nonneg.2 (hx s hsr)) h.le
          rcases lt_or_eq_of_le (sub_nonneg.2 (hx e her)) with h3 | h3
          · exact nonneg_of_pos_mul h3 (by rw [id]; linarith)
          · exfalso
            rw [← h3, zero_mul] at id
            have z1 : (s.x - f.x) * area2 f t e = 0 := by linarith
            have z1' := (mul_eq_zero.1 z1).resolve_right h.ne'
            simp only [area2, z1', ← h3] at h1
            simp at h1
        · rw [List.mem_singleton] at hs; subst hs
          simp only [area2]; apply le_of_eq; ring
      · rcases List.mem_append.1 hs with hs | hs
        · exact hI s hs
        · rw [List.mem_singleton] at hs; subst hs
          have : area2 f e s = - area2 f s e := by simp only [area2]; ring
          rw [this]; linarith

/-- **C22**, the sides: when no line through the first point of the hull (a leftmost one) has two other input points,
every input point lies on the same side of every edge of the yielded polygon, or on it. Missing: sets where such a
line exists, for which the claim can fail (`C22_collinear_wrong`). -/
theorem C22_sides_partial {pts points h : List (Pt K)} {fuel : ℕ} (hp : SortedSet pts points)
    (hg : ∀ f ∈ points.head?, ∀ a ∈ pts, ∀ b ∈ pts, a ≠ f → b ≠ f → a ≠ b → ¬ Collinear f a b)
    (hh : Pt.convexHull fuel points = some h) :
    ∀ ab ∈ edges h, ∀ t ∈ pts, 0 ≤ area2 ab.1 ab.2 t := by
  obtain ⟨hm, hn, hs⟩ := hp
  match points, hm, hn, hs, hg, hh with
  | [], hm, _, _, _, _ => 
    intro ab _ t ht
    exact absurd ((hm t).2 ht) (by simp)
  | f :: r, hm, hn, hs, hg, hh =>
    have hf : ∀ t ∈ r, t ≠ f := fun t ht h => (List.nodup_cons.1 hn).1 (h ▸ ht)
    have hx' := (List.pairwise_cons.1 hs).1
    have hx : ∀ t ∈ f :: r, f.x ≤ t.x := by
      intro t ht
      rcases List.mem_cons.1 ht with rfl | ht
      · exact le_rfl
      · exact hx' t ht
    have hg' : ∀ a ∈ r, ∀ b ∈ r, a ≠ f → b ≠ f → a ≠ b → area2 f a b ≠ 0 := by
      intro a ha b hb h1 h2 h3 h4
      exact hg f (by simp) a ((hm a).1 (by simp [ha])) b ((hm b).1 (by simp [hb])) h1 h2 h3 (area2_zero_iff.1 h4)
    -- the first step
    have hfirst : (∀ t ∈ f :: r, 0 ≤ area2 f (hullNext f (f :: r)) t) ∧
        (f ≠ hullNext f (f :: r) → hullNext f (f :: r) ∈ r ∧ Turn f (f :: r) (fun _ _ => True) (hullNext f (f :: r))) := by
      match r, hf, hx', hg' with
      | [], _, _, _ =>
        have : hullNext f [f] = f := by simp [hullNext, scanStep]
        rw [this]
        exact ⟨fun t _ => by simp [area2], fun h => absurd rfl h⟩
      | a :: r, hf, hx', hg' =>
        have e1 : hullNext f (f :: a :: r) = r.foldl (scanStep f) a := by
          rw [hullNext_eq, List.foldl_cons, List.foldl_cons]
          have h1 : scanStep f f f = f := by simp [scanStep]
          have h2 : scanStep f f a = a := by simp [scanStep]
          rw [h1, h2]
        obtain ⟨h1, h2⟩ := first_sides hx' hf hg' r [a] a rfl (by simp) (by
          intro s hs'
          rw [List.mem_singleton] at hs'; subst hs'
          simp only [area2]; apply le_of_eq; ring)
        rw [e1]
        have h3 : ∀ t ∈ f :: a :: r, 0 ≤ area2 f (r.foldl (scanStep f) a) t := by
          intro t ht
          rcases List.mem_cons.1 ht with rfl | ht
          · simp [area2]
          · exact h2 t ht
        exact ⟨h3, fun _ => ⟨h1, fun t ht _ _ _ hlow _ => absurd (h3 t ht) (not_le.2 hlow)⟩⟩
    simp only [Pt.convexHull] at hh
    have hall := hullLoop_forall (f := f) (l := f :: r)
      (P := fun a => a = f ∨ (a ∈ r ∧ Turn f (f :: r) (fun _ _ => True) a)) (by
        rintro a (rfl | ⟨ha, hT⟩) hne
        · exact Or.inr (hfirst.2 hne)
        · exact Or.inr ((step_sides hx ha (hf a ha) hg' hT).2 hne)) _ _ _ hh (Or.inl rfl)
    obtain ⟨⟨k, rfl⟩, he⟩ := hullLoop_edges _ _ _ hh
    intro ab hab t ht
    have hab' : ab ∈ (f :: k).zip ((f :: k).tail ++ [f]) := by
      simpa [edges] using hab
    rw [he ab hab']
    have ht' := (hm t).2 ht
    rcases hall ab.1 (List.of_mem_zip hab').1 with h1 | ⟨h1, hT⟩
    · rw [h1]; exact hfirst.1 t ht'
    · exact (step_sides hx h1 (hf _ h1) hg' hT).1 t ht'

end

/-- a square with a point inside and one on an edge: the hull is found -/
example : Pt.convexHull 10 [(⟨0, 0⟩ : Pt ℚ), ⟨0, 3⟩, ⟨1, 2⟩, ⟨3, 1⟩, ⟨3, 0⟩, ⟨3, 3⟩] =
    some [⟨0, 0⟩, ⟨3, 0⟩, ⟨3, 1⟩, ⟨3, 3⟩, ⟨0, 3⟩] := by decide +kernel

/-- the hypotheses of `C22_terminates_partial` can be met, with a repeated point -/
example : SortedSet [(⟨2, 0⟩ : Pt ℚ), ⟨0, 0⟩, ⟨2, 0⟩, ⟨1, 5⟩] [⟨0, 0⟩, ⟨1, 5⟩, ⟨2, 0⟩] := by
  refine ⟨fun p => ?_, by decide +kernel, by decide +kernel⟩
  simp only [List.mem_cons, List.not_mem_nil, or_false]
  tauto

/-- the hypothesis of `C22_sides_partial` can be met with collinear points elsewhere -/
example : ∀ f ∈ [(⟨0, 0⟩ : Pt ℚ), ⟨1, 1⟩, ⟨1, 2⟩, ⟨1, 3⟩].head?, ∀ a ∈ [(⟨0, 0⟩ : Pt ℚ), ⟨1, 1⟩, ⟨1, 2⟩, ⟨1, 3⟩],
    ∀ b ∈ [(⟨0, 0⟩ : Pt ℚ), ⟨1, 1⟩, ⟨1, 2⟩, ⟨1, 3⟩], a ≠ f → b ≠ f → a ≠ b → ¬ Collinear f a b := by
  simp only [← area2_zero_iff]
  decide +kernel

/-- With three points on a line the hull can be wrong: of `(0,5), (2,3), (4,1), (6,0)` it yields `(0,5), (2,3), (6,0)`,
and the input point `(4,1)` is outside: on the other side of the edge from `(2,3)` to `(6,0)` than `(0,5)`. -/
theorem C22_collinear_wrong :
    ∃ (pts points h : List (Pt ℚ)) (a b s t : Pt ℚ), SortedSet pts points ∧
      (∀ fuel, points.length < fuel → Pt.convexHull fuel points = some h) ∧ (a, b) ∈ edges h ∧ s ∈ pts ∧ t ∈ pts ∧
      0 < area2 a b s ∧ area2 a b t < 0 := by
  obtain ⟨h, h1, -⟩ := C22_terminates_partial
    (pts := [(⟨0, 5⟩ : Pt ℚ), ⟨2, 3⟩, ⟨4, 1⟩, ⟨6, 0⟩]) (points := [(⟨0, 5⟩ : Pt ℚ), ⟨2, 3⟩, ⟨4, 1⟩, ⟨6, 0⟩])
    ⟨fun _ => Iff.rfl, by decide +kernel, by decide +kernel⟩
  have h2 := h1 5 (by decide)
  have h3 : Pt.convexHull 5 [(⟨0, 5⟩ : Pt ℚ), ⟨2, 3⟩, ⟨4, 1⟩, ⟨6, 0⟩] = some [⟨0, 5⟩, ⟨2, 3⟩, ⟨6, 0⟩] := by
    decide +kernel
  rw [h3] at h2
  cases h2
  refine ⟨_, _, _, ⟨2, 3⟩, ⟨6, 0⟩, ⟨0, 5⟩, ⟨4, 1⟩, ⟨fun _ => Iff.rfl, by decide +kernel, by decide +kernel⟩, h1,
    by decide +kernel, by simp, by simp, by decide +kernel, by decide +kernel⟩

end Svgio.Props
