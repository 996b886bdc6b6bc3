import Verif.Props.PathReverse
import Verif.Model.PathCache
import Mathlib.Tactic.LinearCombination
import Mathlib.Tactic.Linarith
import Mathlib.Tactic.FieldSimp

/-!
C50: the cached length; C51: the segment at a position; C74: many positions at once.
-/

namespace Svgio.Props
open Spec Path

variable {K : Type} [Field K] [LinearOrder K] {E : Type}

/-! ### C50 -/

/-- the operations that clear the cache, and queries with the error argument `e` -/
def SafeOp (e : E) : CacheOp K E → Prop
  | .reverse | .validateConnections => False
  | .length e' => e' = e
  | .point e' _ => e' = e
  | _ => True

/-- the cache is empty or holds what `len e` gives for the present segments -/
def Fresh (len : E → Seg K → K) (e : E) (c : Cached K) : Prop :=
  c.length = none ∨ (c.length = some (c.segs.map (len e)).sum ∧
    c.lengths = some (if (c.segs.map (len e)).sum = 0 then c.segs.map (len e)
      else (c.segs.map (len e)).map (· / (c.segs.map (len e)).sum)))

theorem calc_fresh {len : E → Seg K → K} {e : E} {c : Cached K} (h : Fresh len e c) :
    (calcLengths len e c).segs = c.segs ∧ (calcLengths len e c).length = some (c.segs.map (len e)).sum ∧
      (calcLengths len e c).lengths = some (if (c.segs.map (len e)).sum = 0 then c.segs.map (len e)
        else (c.segs.map (len e)).map (· / (c.segs.map (len e)).sum)) := by
  unfold calcLengths
  rcases h with h | ⟨h1, h2⟩
  · rw [h]; exact ⟨rfl, rfl, rfl⟩
  · rw [h1]; exact ⟨rfl, h1, h2⟩

theorem locate_state (len : E → Seg K → K) (rnd : K → ℤ) (e : E) (t : K) (c : Cached K) :
    (locate len rnd e t c).1 = c ∨ (locate len rnd e t c).1 = calcLengths len e c := by
  unfold locate
  split_ifs <;> first | exact Or.inl rfl | (right; simp only; split_ifs <;> rfl)

theorem fresh_step {len : E → Seg K → K} {rnd : K → ℤ} {e : E} {c : Cached K} {op : CacheOp K E} (h : Fresh len e c)
    (ho : SafeOp e op) : Fresh len e (c.step len rnd op) := by
  have hcalc : Fresh len e (calcLengths len e c) := by
    obtain ⟨h1, h2, h3⟩ := calc_fresh h
    right; rw [h1]; exact ⟨h2, h3⟩
  cases op with
  | append s => exact Or.inl rfl
  | insert i s => exact Or.inl rfl
  | extend q => exact Or.inl rfl
  | iadd q => exact Or.inl rfl
  | set i s =>
    unfold Cached.step
    simp only
    cases setItem c.segs i s with
    | ok q => exact Or.inl rfl
    | error x => exact h
  | del i =>
    unfold Cached.step
    simp only
    cases delItem c.segs i with
    | ok q => exact Or.inl rfl
    | error x => exact h
  | directClose =>
    unfold Cached.step
    simp only
    split_ifs
    · exact h
    · exact Or.inl rfl
  | reverse => exact absurd ho id
  | validateConnections => exact absurd ho id
  | length e' =>
    have : e' = e := ho
    subst this; exact hcalc
  | point e' t =>
    have : e' = e := ho
    subst this
    rcases locate_state len rnd e' t c with h' | h'
    · show Fresh len e' (locate len rnd e' t c).1
      rw [h']; exact h
    · show Fresh len e' (locate len rnd e' t c).1
      rw [h']; exact hcalc

theorem fresh_run {len : E → Seg K → K} {rnd : K → ℤ} {e : E} : ∀ {ops : List (CacheOp K E)} {c : Cached K}, Fresh len e c →
    (∀ op ∈ ops, SafeOp e op) → Fresh len e (c.run len rnd ops) := by
  intro ops
  induction ops with
  | nil => intro c h _; exact h
  | cons op ops ih =>
    intro c h ho
    exact ih (fresh_step h (ho op (by simp))) (fun x hx => ho x (by simp [hx]))

/-- **C50**, partial: after any history of appends, insertions (also ones that raise), extensions, assignments,
deletions, direct closes and length and point queries, `length()` is the sum of the lengths of the present
segments. Missing: histories with `reverse` or `validate_connections`, which do not clear the cache, and
queries with different error arguments, which the cache ignores: see `C50_reverse_stale`,
`C50_validate_stale`, `C50_error_ignored`. -/
theorem C50_length_partial (len : E → Seg K → K) (rnd : K → ℤ) (e : E) (p : List (Seg K)) (ops : List (CacheOp K E))
    (ho : ∀ op ∈ ops, SafeOp e op) :
    lengthOf len e (Cached.run len rnd { segs := p } ops) =
      ((Cached.run len rnd { segs := p } ops).segs.map (len e)).sum := by
  have h := fresh_run (len := len) (rnd := rnd) (c := { segs := p }) (Or.inl rfl) ho
  unfold lengthOf
  rw [(calc_fresh h).2.1]; rfl

/-- Once a length is known, the error argument of later queries has no effect. -/
theorem C50_error_ignored (len : E → Seg K → K) (rnd : K → ℤ) (e e' : E) (p : List (Seg K)) :
    lengthOf len e' (Cached.run len rnd { segs := p } [.length e]) = (p.map (len e)).sum := by
  unfold lengthOf Cached.run
  simp only [List.foldl_cons, List.foldl_nil, Cached.step]
  unfold calcLengths
  rfl

/-- `len` is the distance of the ends for straight segments whose distance is in `K`, and 0 for moves -/
def StraightLen (len : E → Seg K → K) : Prop :=
  (∀ e s, s.kind = .move → len e s = 0) ∧
  ∀ e s a b (d : K), s.kind = .line ∨ s.kind = .close → s.start = some a → s.stop = some b → 0 ≤ d →
    d ^ 2 = (a.x - b.x) ^ 2 + (a.y - b.y) ^ 2 → len e s = d

/-- three lines and a close: 0,0 to 3,0 to 3,4 to 3,5, and back to 3,0 -/
def exStale : List (Seg ℚ) :=
  [⟨.line, some ⟨0, 0⟩, some ⟨3, 0⟩, false, true⟩, ⟨.line, some ⟨3, 0⟩, some ⟨3, 4⟩, false, true⟩,
   ⟨.line, some ⟨3, 4⟩, some ⟨3, 5⟩, false, true⟩, ⟨.close, some ⟨3, 5⟩, some ⟨3, 0⟩, false, true⟩]

/-- lines 0,0 to 1,0 and 0,0 to 4,0, not connected -/
def exGap : List (Seg ℚ) :=
  [⟨.line, some ⟨0, 0⟩, some ⟨1, 0⟩, false, true⟩, ⟨.line, some ⟨0, 0⟩, some ⟨4, 0⟩, false, true⟩]

/-- After `length()`, `reverse()`, the length is still that of the old segments: 13 instead of 15. -/
theorem C50_reverse_stale {len : E → Seg ℚ → ℚ} (hl : StraightLen len) (rnd : ℚ → ℤ) (e : E) :
    lengthOf len e (Cached.run len rnd { segs := exStale } [.length e, .reverse]) = 13 ∧
    ((Cached.run len rnd { segs := exStale } [.length e, .reverse]).segs.map (len e)).sum = 15 := by
  have hr : Path.reverse exStale =
    [⟨.line, some ⟨0, 0⟩, some ⟨3, 4⟩, false, true⟩, ⟨.line, some ⟨3, 4⟩, some ⟨3, 0⟩, false, true⟩,
     ⟨.line, some ⟨3, 0⟩, some ⟨3, 5⟩, false, true⟩, ⟨.close, some ⟨3, 5⟩, some ⟨3, 4⟩, false, true⟩] := by decide +kernel
  have l1 : ∀ (k : Kind ℚ) (a b : Pt ℚ) (d : ℚ), k = .line ∨ k = .close → 0 ≤ d → d ^ 2 = (a.x - b.x) ^ 2 + (a.y - b.y) ^ 2 →
      len e ⟨k, some a, some b, false, true⟩ = d := fun k a b d hk h1 h2 => hl.2 e _ a b d hk rfl rfl h1 h2
  constructor
  · show (exStale.map (len e)).sum = 13
    simp only [exStale, List.map_cons, List.map_nil, List.sum_cons, List.sum_nil]
    rw [l1 _ _ _ 3 (by simp) (by norm_num) (by norm_num), l1 _ _ _ 4 (by simp) (by norm_num) (by norm_num),
      l1 _ _ _ 1 (by simp) (by norm_num) (by norm_num), l1 _ _ _ 5 (by simp) (by norm_num) (by norm_num)]
    norm_num
  · show ((Path.reverse exStale).map (len e)).sum = 15
    rw [hr]
    simp only [List.map_cons, List.map_nil, List.sum_cons, List.sum_nil]
    rw [l1 _ _ _ 5 (by simp) (by norm_num) (by norm_num), l1 _ _ _ 4 (by simp) (by norm_num) (by norm_num),
      l1 _ _ _ 5 (by simp) (by norm_num) (by norm_num), l1 _ _ _ 1 (by simp) (by norm_num) (by norm_num)]
    norm_num

/-- After `length()`, `validate_connections()`, the length is still that of the old segments: 5 instead of 4. -/
theorem C50_validate_stale {len : E → Seg ℚ → ℚ} (hl : StraightLen len) (rnd : ℚ → ℤ) (e : E) :
    lengthOf len e (Cached.run len rnd { segs := exGap } [.length e, .validateConnections]) = 5 ∧
    ((Cached.run len rnd { segs := exGap } [.length e, .validateConnections]).segs.map (len e)).sum = 4 := by
  have hr : Path.validateConnections exGap =
    [⟨.line, some ⟨0, 0⟩, some ⟨1, 0⟩, false, true⟩, ⟨.line, some ⟨1, 0⟩, some ⟨4, 0⟩, false, true⟩] := by decide +kernel
  have l1 : ∀ (k : Kind ℚ) (a b : Pt ℚ) (d : ℚ), k = .line ∨ k = .close → 0 ≤ d → d ^ 2 = (a.x - b.x) ^ 2 + (a.y - b.y) ^ 2 →
      len e ⟨k, some a, some b, false, true⟩ = d := fun k a b d hk h1 h2 => hl.2 e _ a b d hk rfl rfl h1 h2
  constructor
  · show (exGap.map (len e)).sum = 5
    simp only [exGap, List.map_cons, List.map_nil, List.sum_cons, List.sum_nil]
    rw [l1 _ _ _ 1 (by simp) (by norm_num) (by norm_num), l1 _ _ _ 4 (by simp) (by norm_num) (by norm_num)]
    norm_num
  · show ((Path.validateConnections exGap).map (len e)).sum = 4
    rw [hr]
    simp only [List.map_cons, List.map_nil, List.sum_cons, List.sum_nil]
    rw [l1 _ _ _ 1 (by simp) (by norm_num) (by norm_num), l1 _ _ _ 3 (by simp) (by norm_num) (by norm_num)]
    norm_num

/-- There is such a `len`. -/
theorem straightLen_exists : ∃ len : Unit → Seg ℚ → ℚ, StraightLen len := by
  classical
  refine ⟨fun _ s => if h : ∃ d a b, (s.kind = .line ∨ s.kind = .close) ∧ s.start = some a ∧ s.stop = some b ∧ (0 : ℚ) ≤ d ∧
    d ^ 2 = (a.x - b.x) ^ 2 + (a.y - b.y) ^ 2 then h.choose else 0, ?_, ?_⟩
  · intro _ s hs
    beta_reduce
    rw [dif_neg]
    rintro ⟨d, a, b, h, -⟩
    rw [hs] at h
    rcases h with h | h <;> cases h
  · intro _ s a b d h1 h2 h3 h4 h5
    have h : ∃ d a b, (s.kind = .line ∨ s.kind = .close) ∧ s.start = some a ∧ s.stop = some b ∧ (0 : ℚ) ≤ d ∧
      d ^ 2 = (a.x - b.x) ^ 2 + (a.y - b.y) ^ 2 := ⟨d, a, b, h1, h2, h3, h4, h5⟩
    beta_reduce
    rw [dif_pos h]
    obtain ⟨a', b', -, g2, g3, g4, g5⟩ := h.choose_spec
    rw [h2] at g2; cases g2
    rw [h3] at g3; cases g3
    exact (pow_left_inj₀ g4 h4 (by norm_num)).mp (g5.trans h5.symm)

example : ∀ op ∈ ([.length (), .append ⟨.line, some ⟨3, 0⟩, some ⟨4, 0⟩, false, true⟩, .del 0, .point () (1 / 2)] :
    List (CacheOp ℚ Unit)), SafeOp () op := by
  intro op h
  simp only [List.mem_cons, List.not_mem_nil, or_false] at h
  rcases h with rfl | rfl | rfl | rfl <;> simp [SafeOp]

/-! ### C51 -/

variable [IsStrictOrderedRing K]

theorem locateGo_spec (n : ℕ) (t : K) : ∀ (fs : List K) (i : ℕ) (s : K), (∀ f ∈ fs, 0 ≤ f) → s < t → t ≤ s + fs.sum →
    ∃ k u, locateGo n t i s fs = .ok (i + k, u) ∧ k < fs.length ∧ 0 < u ∧ u ≤ 1 ∧ 0 < fs.getD k 0 ∧
      s + (fs.take k).sum + u * fs.getD k 0 = t := by
  intro fs
  induction fs with
  | nil => intro i s _ h1 h2; simp at h2; exact absurd h1 (not_lt.mpr h2)
  | cons f fs ih =>
    intro i s hf h1 h2
    have hf0 := hf f (by simp)
    unfold locateGo
    simp only
    by_cases h : t ≤ s + f
    · have hpos : 0 < f := by linarith
      have e : s + f - s = f := by ring
      rw [if_pos h, e, if_neg hpos.ne']
      refine ⟨0, (t - s) / f, rfl, by simp, div_pos (by linarith) hpos, (div_le_one hpos).mpr (by linarith), by simpa using hpos, ?_⟩
      simp
      rw [div_mul_cancel₀ _ hpos.ne']; ring
    · rw [if_neg h]
      push Not at h
      obtain ⟨k, u, g1, g2, g3, g4, g5, g6⟩ := ih (i + 1) (s + f) (fun x hx => hf x (by simp [hx])) h
        (by rw [List.sum_cons] at h2; linarith)
      refine ⟨k + 1, u, ?_, by simp; omega, g3, g4, by simpa using g5, ?_⟩
      · rw [g1, Nat.add_assoc, Nat.add_comm 1]
      · rw [List.take_succ_cons, List.sum_cons, List.getD_cons_succ]
        linarith

theorem sum_map_div (l : List K) (c : K) : (l.map (· / c)).sum = l.sum / c := by
  induction l with
  | nil => simp
  | cons a l ih => simp [ih, add_div]

theorem getD_map_div (l : List K) (c : K) (k : ℕ) : (l.map (· / c)).getD k 0 = l.getD k 0 / c := by
  simp only [List.getD_eq_getElem?_getD, List.getElem?_map]
  cases l[k]? <;> simp

/-- **C51**: on a path with cached lengths that are up to date (as after any history of C50), with segment
lengths that are not negative and not all 0, `point(t)` for `0 < t < 1` evaluates the segment `i` at a local
position `u` with `0 < u ≤ 1` such that the lengths before `i` together with the part `u` of the length of
`i`, which is not 0, make the fraction `t` of the total; it does not divide by zero. -/
theorem C51_point {len : E → Seg K → K} {e : E} {c : Cached K} (hc : Fresh len e c) (hnn : ∀ s ∈ c.segs, 0 ≤ len e s)
    (hpos : 0 < (c.segs.map (len e)).sum) (rnd : K → ℤ) {t : K} (h0 : 0 < t) (h1 : t < 1) :
    ∃ i u s, (locate len rnd e t c).2 = .ok (some (i, u)) ∧ c.segs[i]? = some s ∧ 0 < u ∧ u ≤ 1 ∧ 0 < len e s ∧
      ((c.segs.take i).map (len e)).sum + u * len e s = t * (c.segs.map (len e)).sum := by
  have hne : c.segs ≠ [] := by
    intro h; rw [h] at hpos; simp at hpos
  obtain ⟨g1, g2, g3⟩ := calc_fresh hc
  generalize hL : (c.segs.map (len e)).sum = L at *
  rw [if_neg hpos.ne'] at g3
  have hlen : ((c.segs.map (len e)).map (· / L)).length = c.segs.length := by simp
  obtain ⟨k, u, f1, f2, f3, f4, f5, f6⟩ := locateGo_spec c.segs.length t ((c.segs.map (len e)).map (· / L)) 0 0 (by
      intro f hf
      obtain ⟨x, hx, rfl⟩ := List.mem_map.mp hf
      obtain ⟨s, hs, rfl⟩ := List.mem_map.mp hx
      exact div_nonneg (hnn s hs) hpos.le) h0 (by
      rw [sum_map_div, hL, div_self hpos.ne']; linarith)
  rw [hlen] at f2
  have hk : c.segs[k]? = some c.segs[k] := List.getElem?_eq_getElem f2
  have hgd : (c.segs.map (len e)).getD k 0 = len e c.segs[k] := by
    rw [List.getD_eq_getElem?_getD, List.getElem?_map, hk]; rfl
  rw [getD_map_div, hgd] at f5 f6
  refine ⟨k, u, c.segs[k], ?_, hk, f3, f4, ?_, ?_⟩
  · unfold locate
    rw [if_neg (by simpa using hne), if_neg (not_le.mpr h0), if_neg (not_le.mpr h1)]
    simp only
    rw [g2, if_neg (by simpa using hpos.ne'), g3]
    simp only [Option.getD_some]
    rw [List.take_of_length_le (by rw [hlen]), f1]
    simp
  · rcases (div_pos_iff.mp f5) with h | h
    · exact h.1
    · exact absurd h.2 (not_lt.mpr hpos.le)
  · rw [← List.map_take, sum_map_div] at f6
    rw [List.map_take]
    have hL0 : L ≠ 0 := hpos.ne'
    field_simp at f6
    linarith

/-- **C51**, the other cases: positions up to 0 go to the first segment and from 1 on to the last; on a path
of total length 0 some existing segment is evaluated at its beginning, for any rounding to a nearest integer. -/
theorem C51_point_ends {len : E → Seg K → K} {e : E} {c : Cached K} (hne : c.segs ≠ []) (rnd : K → ℤ) (t : K) :
    (t ≤ 0 → (locate len rnd e t c).2 = .ok (some (0, t))) ∧
    (1 ≤ t → (locate len rnd e t c).2 = .ok (some (c.segs.length - 1, t))) ∧
    (Fresh len e c → (c.segs.map (len e)).sum = 0 → (∀ x : K, |(rnd x : K) - x| ≤ 1 / 2) → 0 < t → t < 1 →
      ∃ i, (locate len rnd e t c).2 = .ok (some (i, 0)) ∧ i < c.segs.length) := by
  have hn : 0 < c.segs.length := List.length_pos_iff.mpr hne
  refine ⟨?_, ?_, ?_⟩
  · intro h
    unfold locate
    rw [if_neg (by omega), if_pos h]
  · intro h
    unfold locate
    rw [if_neg (by omega), if_neg (by linarith), if_pos h]
  · intro hf hs hr h0 h1
    obtain ⟨g1, g2, g3⟩ := calc_fresh hf
    unfold locate
    rw [if_neg (by omega), if_neg (by linarith), if_neg (by linarith)]
    simp only
    rw [g2, hs, if_pos rfl]
    have hx := abs_le.mp (hr (t * ((c.segs.length : K) - 1)))
    have hn1 : (0 : K) ≤ (c.segs.length : K) - 1 := by
      have : (1 : K) ≤ (c.segs.length : K) := by exact_mod_cast hn
      linarith
    generalize rnd (t * ((c.segs.length : K) - 1)) = r at *
    have hlo : (-1 : K) < (r : K) := by
      have : 0 ≤ t * ((c.segs.length : K) - 1) := mul_nonneg h0.le hn1
      linarith
    have hhi : (r : K) < (c.segs.length : K) := by
      have : t * ((c.segs.length : K) - 1) ≤ (c.segs.length : K) - 1 := by
        nlinarith
      linarith
    have hlo' : (-1 : ℤ) < r := by exact_mod_cast hlo
    have hhi' : r < (c.segs.length : ℤ) := by exact_mod_cast hhi
    obtain ⟨m, rfl⟩ : ∃ m : ℕ, r = m := ⟨r.toNat, by omega⟩
    refine ⟨m, ?_, by omega⟩
    rw [pyIdx_nat (by omega)]

example : Fresh (fun (_ : Unit) (s : Seg ℚ) => if s.isMove then 0 else 1) () { segs := exEdit } ∧
    0 < (exEdit.map (fun s : Seg ℚ => if s.isMove then (0 : ℚ) else 1)).sum := by
  refine ⟨Or.inl rfl, by decide +kernel⟩

/-! ### C74 -/

/-- position `t` lies on the segment `i` of a path with these fractions, at the local position `u` -/
def OnSegment (fs : List K) (t : K) (i : ℕ) (u : K) : Prop :=
  0 < fs.getD i 0 ∧ 0 ≤ u ∧ u < 1 ∧ (fs.take i).sum + u * fs.getD i 0 = t

theorem npGo_spec : ∀ (fs : List K) (i : ℕ) (s : K) (ps : List (K × Option (ℕ × K))), (∀ f ∈ fs, 0 ≤ f) →
    (∀ k, 0 < fs.getD k 0 → ∃ pr ∈ ps, s + (fs.take k).sum ≤ pr.1 ∧ pr.1 < s + (fs.take (k + 1)).sum) →
    (npGo i s ps fs).map Prod.fst = ps.map Prod.fst ∧
    ∀ (j : ℕ) t o, ps[j]? = some (t, o) → ∃ o', (npGo i s ps fs)[j]? = some (t, o') ∧
      (t < s → o' = o) ∧ (∀ k u, 0 < fs.getD k 0 → 0 ≤ u → u < 1 → s + (fs.take k).sum + u * fs.getD k 0 = t →
        o' = some (i + k, u)) := by
  intro fs
  induction fs with
  | nil =>
    intro i s ps _ _
    refine ⟨rfl, ?_⟩
    intro j t o h
    exact ⟨o, h, fun _ => rfl, fun k u h => by simp at h⟩
  | cons f fs ih =>
    intro i s ps hf hcov
    have hf0 := hf f (by simp)
    unfold npGo
    simp only
    by_cases hfp : 0 < f
    · obtain ⟨pr, hpr, b1, b2⟩ := hcov 0 (by simpa using hfp)
      have hany : ps.any (fun pr => decide (s ≤ pr.1) && decide (pr.1 < s + f)) = true := by
        rw [List.any_eq_true]
        refine ⟨pr, hpr, ?_⟩
        simp at b1 b2
        simp [b1, b2]
      rw [if_pos hany]
      have e : s + f - s = f := by ring
      have hfst : (npMark i s (s + f) ps).map Prod.fst = ps.map Prod.fst := by
        unfold npMark
        rw [List.map_map]
        apply List.map_congr_left
        intro x _
        simp only [Function.comp]
        split_ifs <;> rfl
      obtain ⟨h1, h2⟩ := ih (i + 1) (s + f) (npMark i s (s + f) ps) (fun x hx => hf x (by simp [hx])) (by
        intro k hk
        obtain ⟨q, hq, c1, c2⟩ := hcov (k + 1) (by simpa using hk)
        have : q.1 ∈ (npMark i s (s + f) ps).map Prod.fst := by
          rw [hfst]; exact List.mem_map_of_mem hq
        obtain ⟨q', hq', he⟩ := List.mem_map.mp this
        refine ⟨q', hq', ?_⟩
        rw [he]
        rw [List.take_succ_cons, List.sum_cons] at c1 c2
        exact ⟨by linarith, by linarith⟩)
      refine ⟨h1.trans hfst, ?_⟩
      intro j t o hj
      have hm : (npMark i s (s + f) ps)[j]? = some (t, if s ≤ t ∧ t < s + f then some (i, (t - s) / f) else o) := by
        unfold npMark
        rw [List.getElem?_map, hj]
        simp only [Option.map_some, e, if_neg hfp.ne']
        split_ifs <;> rfl
      obtain ⟨o', g1, g2, g3⟩ := h2 j t _ hm
      refine ⟨o', g1, ?_, ?_⟩
      · intro ht
        rw [g2 (by linarith), if_neg (by rintro ⟨h, _⟩; linarith)]
      · intro k u hk hu0 hu1 hsum
        cases k with
        | zero =>
          simp at hsum
          have ht : t < s + f := by nlinarith
          have hs : s ≤ t := by nlinarith [mul_nonneg hu0 hfp.le]
          rw [g2 ht, if_pos ⟨hs, ht⟩]
          have : (t - s) / f = u := by rw [← hsum, add_sub_cancel_left, mul_div_cancel_right₀ _ hfp.ne']
          rw [this]; rfl
        | succ k =>
          rw [List.take_succ_cons, List.sum_cons, List.getD_cons_succ] at hsum
          have := g3 k u (by simpa using hk) hu0 hu1 (by linarith)
          rw [this]
          congr 2; omega
    · have hf00 : f = 0 := le_antisymm (not_lt.mp hfp) hf0
      subst hf00
      have hany : ¬ ps.any (fun pr => decide (s ≤ pr.1) && decide (pr.1 < s + 0)) = true := by
        rw [List.any_eq_true]
        rintro ⟨x, _, hx⟩
        simp at hx
        exact absurd hx.1 (not_le.mpr hx.2)
      rw [if_neg hany]
      obtain ⟨h1, h2⟩ := ih (i + 1) s ps (fun x hx => hf x (by simp [hx])) (by
        intro k hk
        obtain ⟨q, hq, c1, c2⟩ := hcov (k + 1) (by simpa using hk)
        rw [List.take_succ_cons, List.sum_cons] at c1 c2
        exact ⟨q, hq, by linarith, by linarith⟩)
      refine ⟨h1, ?_⟩
      intro j t o hj
      obtain ⟨o', g1, g2, g3⟩ := h2 j t o hj
      refine ⟨o', g1, g2, ?_⟩
      intro k u hk hu0 hu1 hsum
      cases k with
      | zero => simp at hk
      | succ k =>
        rw [List.take_succ_cons, List.sum_cons, List.getD_cons_succ] at hsum
        have := g3 k u (by simpa using hk) hu0 hu1 (by linarith)
        rw [this]
        congr 2; omega

/-- **C74**, partial: `npoint` evaluates each position in the segment it lies on, at the matching local
position, when at least one position lies on every segment of non-zero length. Missing: other arrays of
positions, for which it is false, see `C74_npoint_wrong`. -/
theorem C74_npoint_partial {fs ps : List K} (hf : ∀ f ∈ fs, 0 ≤ f)
    (hcov : ∀ k, 0 < fs.getD k 0 → ∃ t ∈ ps, (fs.take k).sum ≤ t ∧ t < (fs.take (k + 1)).sum)
    {j : ℕ} {t : K} (hj : ps[j]? = some t) (ht : t < 1) {i : ℕ} {u : K} (hon : OnSegment fs t i u) :
    (npLocate fs ps)[j]? = some (some (i, u)) := by
  obtain ⟨-, h⟩ := npGo_spec fs 0 0 (ps.map (fun t => (t, none))) hf (by
    intro k hk
    obtain ⟨x, hx, h1, h2⟩ := hcov k hk
    exact ⟨(x, none), List.mem_map_of_mem hx, by simpa using h1, by simpa using h2⟩)
  obtain ⟨o', g1, -, g3⟩ := h j t none (by rw [List.getElem?_map, hj]; rfl)
  obtain ⟨a1, a2, a3, a4⟩ := hon
  rw [g3 i u a1 a2 a3 (by linarith)] at g1
  unfold npLocate
  rw [List.getElem?_map, g1]
  simp [ht.ne]

/-- On a path of a move and two lines that make one tenth and nine tenths of its length, the position 1/4 alone
is evaluated at 5/18 of the second line instead of 1/6; and with two lines of the same length the result
for the position 3/4 alone is never written. -/
theorem C74_npoint_wrong :
    npLocate ([0, 1 / 10, 9 / 10] : List ℚ) [1 / 4] = [some (2, 5 / 18)] ∧
    OnSegment ([0, 1 / 10, 9 / 10] : List ℚ) (1 / 4) 2 (1 / 6) ∧
    npLocate ([0, 1 / 2, 1 / 2] : List ℚ) [3 / 4] = [none] := by
  refine ⟨by decide +kernel, ?_, by decide +kernel⟩
  refine ⟨?_, ?_, ?_, ?_⟩ <;> norm_num

example : npLocate ([0, 1 / 2, 1 / 2] : List ℚ) [3 / 4, 1 / 4, 1] = [some (2, 1 / 2), some (1, 1 / 2), some (2, 1)] := by
  decide +kernel

end Svgio.Props
