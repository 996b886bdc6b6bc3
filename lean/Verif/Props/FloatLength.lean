import Verif.Model.FloatLength
import Verif.Props.FloatLocate
import Mathlib.Analysis.Real.Sqrt

/-! C148: the length of a path of lines computed with floats, and the place of its points. -/

namespace Svgio.Props
open Spec Flt

/-- the distance of two points -/
noncomputable def dist (p q : Pt ℚ) : ℝ := Real.sqrt (((p.x : ℝ) - q.x) ^ 2 + ((p.y : ℝ) - q.y) ^ 2)

/-- the length a segment draws: the distance of its ends, 0 for a move and for a line whose start is not known -/
noncomputable def drawn (s : Seg ℚ) : ℝ :=
  match s.kind, s.start, s.stop with
  | .move, _, _ => 0
  | _, some p, some q => dist p q
  | _, _, _ => 0

/-- a move, a line or a close, with coordinates that are doubles -/
def Straight (s : Seg ℚ) : Prop :=
  (s.kind = .move ∨ s.kind = .line ∨ s.kind = .close) ∧
    (∀ p, s.start = some p → IsDouble p.x ∧ IsDouble p.y) ∧ ∀ p, s.stop = some p → IsDouble p.x ∧ IsDouble p.y

theorem square_err {x y : ℚ} (hx : IsDouble x) (hy : IsDouble y) :
    |roundDouble (roundDouble (x - y) * roundDouble (x - y)) - (x - y) ^ 2| ≤ (x - y) ^ 2 * (31 / 10 / 2 ^ 53) + 1 / 2 ^ 1074 := by
  have h1 := sub_rel hx hy
  have h2 := roundDouble_err (roundDouble (x - y) * roundDouble (x - y))
  generalize hη : (1 : ℚ) / 2 ^ 1074 = η at *
  generalize roundDouble (x - y) = u at *
  generalize hd : x - y = d at *
  generalize roundDouble (u * u) = w at *
  rw [abs_of_nonneg (mul_self_nonneg u)] at h2
  have hs : |u * u - d ^ 2| ≤ d ^ 2 * (201 / 100 / 2 ^ 53) := by
    have e : u * u - d ^ 2 = (u - d) * (u - d + 2 * d) := by ring
    rw [e, abs_mul]
    have h3 : |u - d + 2 * d| ≤ |d| * (2 + 1 / 2 ^ 53) := by
      have := abs_add_le (u - d) (2 * d)
      rw [abs_mul (2 : ℚ), abs_two] at this
      linarith
    calc |u - d| * |u - d + 2 * d| ≤ (|d| / 2 ^ 53) * (|d| * (2 + 1 / 2 ^ 53)) := mul_le_mul h1 h3 (abs_nonneg _) (by positivity)
      _ = d ^ 2 * ((2 + 1 / 2 ^ 53) / 2 ^ 53) := by rw [← sq_abs d]; ring
      _ ≤ _ := by gcongr; norm_num
  have hu : u * u ≤ d ^ 2 * (1 + 201 / 100 / 2 ^ 53) := by
    have := (abs_le.1 hs).2
    linarith
  have e : w - d ^ 2 = (w - u * u) + (u * u - d ^ 2) := by ring
  rw [e]
  refine (abs_add_le _ _).trans ?_
  have h4 : u * u / 2 ^ 53 ≤ d ^ 2 * ((1 + 201 / 100 / 2 ^ 53) / 2 ^ 53) := by
    rw [mul_div_assoc']; gcongr
  have h5 : d ^ 2 * ((1 + 201 / 100 / 2 ^ 53) / 2 ^ 53) + d ^ 2 * (201 / 100 / 2 ^ 53) ≤ d ^ 2 * (31 / 10 / 2 ^ 53) := by
    rw [← mul_add]
    gcongr
    norm_num
  linarith

/-- the square that `Point.distance` finds -/
theorem distance_sq (R : FloatRoot) {p q : Pt ℚ} (hp : IsDouble p.x ∧ IsDouble p.y) (hq : IsDouble q.x ∧ IsDouble q.y) :
    |distance doubles R p q ^ 2 - ((p.x - q.x) ^ 2 + (p.y - q.y) ^ 2)| ≤ ((p.x - q.x) ^ 2 + (p.y - q.y) ^ 2) * (9 / 2 ^ 53) + 3 / 2 ^ 1074 := by
  have hx := square_err hp.1 hq.1
  have hy := square_err hp.2 hq.2
  unfold distance
  show |R.sqrt (roundDouble (roundDouble (roundDouble (p.x - q.x) * roundDouble (p.x - q.x)) +
    roundDouble (roundDouble (p.y - q.y) * roundDouble (p.y - q.y)))) ^ 2 - _| ≤ _
  have dx : IsDouble (roundDouble (roundDouble (p.x - q.x) * roundDouble (p.x - q.x))) := roundDouble_isDouble _
  have dy : IsDouble (roundDouble (roundDouble (p.y - q.y) * roundDouble (p.y - q.y))) := roundDouble_isDouble _
  have h0x : 0 ≤ roundDouble (roundDouble (p.x - q.x) * roundDouble (p.x - q.x)) := roundDouble_nonneg (mul_self_nonneg _)
  have h0y : 0 ≤ roundDouble (roundDouble (p.y - q.y) * roundDouble (p.y - q.y)) := roundDouble_nonneg (mul_self_nonneg _)
  generalize roundDouble (roundDouble (p.x - q.x) * roundDouble (p.x - q.x)) = a at *
  generalize roundDouble (roundDouble (p.y - q.y) * roundDouble (p.y - q.y)) = b at *
  have h1 := add_rel dx dy
  have h2 := R.err (roundDouble (a + b)) (roundDouble_nonneg (by linarith)) (roundDouble_double (roundDouble_isDouble _))
  generalize R.sqrt (roundDouble (a + b)) = r at *
  generalize roundDouble (a + b) = s at *
  have hX := sq_nonneg (p.x - q.x)
  have hY := sq_nonneg (p.y - q.y)
  generalize (p.x - q.x) ^ 2 = X at *
  generalize (p.y - q.y) ^ 2 = Y at *
  have hη0 : (0 : ℚ) ≤ 1 / 2 ^ 1074 := by positivity
  rw [show (3 : ℚ) / 2 ^ 1074 = 3 * (1 / 2 ^ 1074) by ring]
  generalize (1 : ℚ) / 2 ^ 1074 = η at *
  rw [abs_of_nonneg (by linarith : 0 ≤ a + b)] at h1
  rw [abs_le] at *
  constructor <;> linarith [hx.1, hx.2, hy.1, hy.2, h1.1, h1.2, h2.1, h2.2]

theorem root_close {r d e w : ℝ} (hr : 0 ≤ r) (hd : 0 ≤ d) (he : 0 ≤ e) (hw : 0 ≤ w) (h : |r ^ 2 - d ^ 2| ≤ d ^ 2 * e + 4 * w ^ 2) :
    |r - d| ≤ d * e + 2 * w := by
  by_contra hc
  push Not at hc
  have h1 : |r ^ 2 - d ^ 2| = |r - d| * (r + d) := by
    rw [show r ^ 2 - d ^ 2 = (r - d) * (r + d) by ring, abs_mul, abs_of_nonneg (by linarith : 0 ≤ r + d)]
  have h2 : |r - d| ≤ r + d := abs_le.2 ⟨by linarith, by linarith⟩
  have h3 : 0 ≤ d * e := mul_nonneg hd he
  have h4 : 0 < r + d := by linarith
  have h5 : (d * e + 2 * w) * (r + d) < |r - d| * (r + d) := mul_lt_mul_of_pos_right hc h4
  have h6 : 2 * w * (2 * w) ≤ 2 * w * (r + d) := mul_le_mul_of_nonneg_left (by linarith) (by linarith)
  have h7 : d * e * d ≤ d * e * (r + d) := mul_le_mul_of_nonneg_left (by linarith) h3
  nlinarith

/-- `Point.distance` of two points with doubles as coordinates -/
theorem distance_err (R : FloatRoot) {p q : Pt ℚ} (hp : IsDouble p.x ∧ IsDouble p.y) (hq : IsDouble q.x ∧ IsDouble q.y) :
    |(distance doubles R p q : ℝ) - dist p q| ≤ dist p q * (9 / 2 ^ 53) + 1 / 2 ^ 536 := by
  have h := distance_sq R hp hq
  have hs : dist p q ^ 2 = ((p.x : ℝ) - q.x) ^ 2 + ((p.y : ℝ) - q.y) ^ 2 := Real.sq_sqrt (by positivity)
  have h' : |((distance doubles R p q : ℚ) : ℝ) ^ 2 - (((p.x : ℝ) - q.x) ^ 2 + ((p.y : ℝ) - q.y) ^ 2)| ≤
      (((p.x : ℝ) - q.x) ^ 2 + ((p.y : ℝ) - q.y) ^ 2) * (9 / 2 ^ 53) + 3 / 2 ^ 1074 := by
    have h2 := (Rat.cast_le (K := ℝ)).2 h
    push_cast at h2
    exact h2
  rw [← hs] at h'
  have e : (1 : ℝ) / 2 ^ 536 = 2 * (1 / 2 ^ 537) := by
    rw [show (2 : ℝ) ^ 537 = 2 ^ 536 * 2 from pow_succ 2 536]; field_simp
  rw [e]
  refine root_close ?_ (Real.sqrt_nonneg _) (by norm_num) (by positivity) (h'.trans ?_)
  · exact_mod_cast R.nonneg _
  · have : (3 : ℝ) / 2 ^ 1074 ≤ 4 * (1 / 2 ^ 537) ^ 2 := by
      rw [div_pow, one_pow, ← pow_mul, show 537 * 2 = 1074 from rfl, mul_one_div]
      gcongr
      norm_num
    linarith

theorem dist_comm' (p q : Pt ℚ) : dist p q = dist q p := by
  unfold dist
  congr 1
  ring

theorem isDouble_zero : IsDouble 0 := isDouble_int (n := 0) (by norm_num)

theorem double_iff {x : ℚ} : roundDouble x = x ↔ IsDouble x := ⟨fun h => h ▸ roundDouble_isDouble x, roundDouble_double⟩

theorem drawn_nonneg (s : Seg ℚ) : 0 ≤ drawn s := by
  unfold drawn
  split
  · exact le_rfl
  · exact Real.sqrt_nonneg _
  · exact le_rfl

theorem segLength_spec (R : FloatRoot) {s : Seg ℚ} (h : Straight s) :
    (0 ≤ segLength doubles R s ∧ IsDouble (segLength doubles R s)) ∧
      |(segLength doubles R s : ℝ) - drawn s| ≤ drawn s * (9 / 2 ^ 53) + 1 / 2 ^ 536 := by
  obtain ⟨hk, hs, he⟩ := h
  have hη : (0 : ℝ) ≤ 1 / 2 ^ 536 := by positivity
  have zero : (0 ≤ (0 : ℚ) ∧ IsDouble 0) ∧ |((0 : ℚ) : ℝ) - 0| ≤ 0 * (9 / 2 ^ 53) + 1 / 2 ^ 536 := by
    refine ⟨⟨le_rfl, isDouble_zero⟩, ?_⟩
    rw [Rat.cast_zero, sub_zero, abs_zero, zero_mul, zero_add]
    exact hη
  have two : ∀ p q, s.start = some p → s.stop = some q → (0 ≤ distance doubles R q p ∧ IsDouble (distance doubles R q p)) ∧
      |(distance doubles R q p : ℝ) - dist p q| ≤ dist p q * (9 / 2 ^ 53) + 1 / 2 ^ 536 := by
    intro p q h1 h2
    refine ⟨⟨R.nonneg _, double_iff.1 (R.double _)⟩, ?_⟩
    rw [dist_comm' p q]
    exact distance_err R (he q h2) (hs p h1)
  unfold segLength drawn
  rcases hk with hk | hk | hk <;> rw [hk]
  · exact zero
  all_goals
    cases h1 : s.start with
    | none => exact zero
    | some p =>
      cases h2 : s.stop with
      | none => exact zero
      | some q => exact two p q h1 h2

theorem lengths_err (R : FloatRoot) {p : List (Seg ℚ)} (h : ∀ s ∈ p, Straight s) :
    |(((p.map (segLength doubles R)).sum : ℚ) : ℝ) - (p.map drawn).sum| ≤ (p.map drawn).sum * (9 / 2 ^ 53) + p.length * (1 / 2 ^ 536) := by
  induction p with
  | nil => simp
  | cons s p ih =>
    have h1 := (segLength_spec R (h s (by simp))).2
    have h2 := ih fun x hx => h x (by simp [hx])
    generalize (1 : ℝ) / 2 ^ 536 = η at *
    simp only [List.map_cons, List.sum_cons, List.length_cons]
    push_cast
    push_cast at h2
    rw [abs_le] at *
    constructor <;> linarith [h1.1, h1.2, h2.1, h2.2]

theorem drawn_sum_nonneg (p : List (Seg ℚ)) : 0 ≤ (p.map drawn).sum :=
  List.sum_nonneg (by simpa using fun s _ => drawn_nonneg s)

/-- **C148.** `path.length()` of a path of at most 2^40 moves, lines and closes, whose coordinates are doubles: the sum of the distances, with
a relative error of about `n + 5` units of `2^-52`, and an absolute one of `n / 2^535`. -/
theorem C148_length (R : FloatRoot) (S : FloatSum) {p : List (Seg ℚ)} (hn : p.length ≤ 2 ^ 40) (h : ∀ s ∈ p, Straight s) :
    |(pathLength doubles R S p : ℝ) - (p.map drawn).sum| ≤ (p.map drawn).sum * (((p.length : ℝ) + 5) / 2 ^ 52) + p.length / 2 ^ 535 := by
  have h1 := lengths_err R h
  have h2 : |S.sum (p.map (segLength doubles R)) - (p.map (segLength doubles R)).sum| ≤
      p.length * (p.map (segLength doubles R)).sum / 2 ^ 52 := by
    have := S.err (p.map (segLength doubles R)) (by simpa using hn) (by
      intro x hx
      obtain ⟨s, hs, rfl⟩ := List.mem_map.1 hx
      have := (segLength_spec R (h s hs)).1
      exact ⟨this.1, double_iff.2 this.2⟩)
    simpa using this
  have h3 : |((S.sum (p.map (segLength doubles R)) : ℚ) : ℝ) - ((p.map (segLength doubles R)).sum : ℚ)| ≤
      p.length * (((p.map (segLength doubles R)).sum : ℚ) : ℝ) / 2 ^ 52 := by
    have h4 := (Rat.cast_le (K := ℝ)).2 h2
    rw [Rat.cast_abs] at h4
    push_cast at h4 ⊢
    exact h4
  show |((S.sum (p.map (segLength doubles R)) : ℚ) : ℝ) - (p.map drawn).sum| ≤ _
  have D0 := drawn_sum_nonneg p
  have hN : ((p.length : ℕ) : ℝ) ≤ 2 ^ 40 := by exact_mod_cast hn
  have hN0 : (0 : ℝ) ≤ p.length := by positivity
  have eη : (p.length : ℝ) / 2 ^ 535 = 2 * (p.length * (1 / 2 ^ 536)) := by
    rw [show (2 : ℝ) ^ 536 = 2 ^ 535 * 2 from pow_succ 2 535]; field_simp
  rw [eη]
  have hη : (0 : ℝ) ≤ 1 / 2 ^ 536 := by positivity
  generalize (1 : ℝ) / 2 ^ 536 = η at *
  generalize ((S.sum (p.map (segLength doubles R)) : ℚ) : ℝ) = A at *
  generalize (((p.map (segLength doubles R)).sum : ℚ) : ℝ) = L at *
  generalize (p.map drawn).sum = D at *
  generalize (p.length : ℝ) = n at *
  have hL : L ≤ D * (1 + 9 / 2 ^ 53) + n * η := by linarith [(abs_le.1 h1).2]
  have h5 : n * L / 2 ^ 52 ≤ D * ((n + 1 / 2) / 2 ^ 52) + n * η := by
    have a1 : n * L / 2 ^ 52 ≤ n * (D * (1 + 9 / 2 ^ 53) + n * η) / 2 ^ 52 := by gcongr
    have a2 : n * (9 / 2 ^ 53) ≤ 1 / 2 := by linarith
    have a3 : n * n * η ≤ 2 ^ 40 * n * η := by gcongr
    have a4 : D * (n * (9 / 2 ^ 53)) ≤ D * (1 / 2) := by gcongr
    have a5 : 0 ≤ n * η := by positivity
    have a6 : n * (D * (1 + 9 / 2 ^ 53) + n * η) / 2 ^ 52 = (D * n + D * (n * (9 / 2 ^ 53)) + n * n * η) / 2 ^ 52 := by ring
    have a7 : (D * n + D * (n * (9 / 2 ^ 53)) + n * n * η) / 2 ^ 52 ≤ (D * n + D * (1 / 2) + 2 ^ 40 * n * η) / 2 ^ 52 := by gcongr
    have a8 : (D * n + D * (1 / 2) + 2 ^ 40 * n * η) / 2 ^ 52 = D * ((n + 1 / 2) / 2 ^ 52) + n * η * (1 / 2 ^ 12) := by ring
    have a9 : n * η * (1 / 2 ^ 12) ≤ n * η * 1 := by gcongr; norm_num
    linarith
  have e : D * ((n + 5) / 2 ^ 52) = D * ((n + 1 / 2) / 2 ^ 52) + D * (9 / 2 ^ 53) := by ring
  rw [e]
  have := abs_sub_le A L D
  linarith

/-- **C148.** Full statement: `path.point(t)` of a path of lines is the point at the fraction `t` of its length, up to rounding. Proved here for
`t` up to `1 - (n + 1) / 2^51`, see `C143_end_wrong`, and for paths of `n` segments that are at least `2^-400` long, see `C148_tiny_wrong`: the
distances before the segment that is evaluated, with the part `u` of its own, make the fraction `t` of the sum of all, up to
`(n + 8) / 2^51` of it. How the point at `u` is found is C120. -/
theorem C148_point_partial (P : FloatPow) (R : FloatRoot) (S : FloatSum) (numpy : Bool) (rnd : ℚ → ℤ) {p : List (Seg ℚ)}
    (hn : p.length ≤ 2 ^ 40) (h : ∀ s ∈ p, Straight s) (hD : 1 / 2 ^ 400 ≤ (p.map drawn).sum) {t : ℚ} (ht : IsDouble t)
    (h0 : 0 < t) (h1 : t ≤ 1 - ((p.length : ℚ) + 1) / 2 ^ 51) :
    ∃ (i : ℕ) (u : ℚ) (s : Seg ℚ), p[i]? = some s ∧
      pathPoint doubles P S numpy rnd (segLength doubles R) p t = (Flt.point doubles P numpy s u).map some ∧ 0 ≤ u ∧ u ≤ 1 ∧
      |((p.take i).map drawn).sum + u * drawn s - t * (p.map drawn).sum| ≤ ((p.length : ℝ) + 8) / 2 ^ 51 * (p.map drawn).sum := by
  have hL := lengths_err R h
  have D0 := drawn_sum_nonneg p
  have hN : ((p.length : ℕ) : ℝ) ≤ 2 ^ 40 := by exact_mod_cast hn
  have hN0 : (0 : ℝ) ≤ p.length := by positivity
  have small : (p.length : ℝ) * (1 / 2 ^ 536) ≤ (p.map drawn).sum * (1 / 2 ^ 96) := by
    calc (p.length : ℝ) * (1 / 2 ^ 536) ≤ 2 ^ 40 * (1 / 2 ^ 536) := by gcongr
      _ = 1 / 2 ^ 400 * (1 / 2 ^ 96) := by
        rw [show (2 : ℝ) ^ 536 = 2 ^ 40 * (2 ^ 400 * 2 ^ 96) by rw [← pow_add, ← pow_add]]
        field_simp
      _ ≤ _ := by gcongr
  have hpos : 0 < (p.map (segLength doubles R)).sum := by
    have : (0 : ℝ) < ((p.map (segLength doubles R)).sum : ℚ) := by
      have a := (abs_le.1 hL).1
      have b : (0 : ℝ) < (p.map drawn).sum := lt_of_lt_of_le (by positivity) hD
      linarith
    exact_mod_cast this
  obtain ⟨i, u, s, a1, a2, a3, a4, a5⟩ := C143_point_partial P S numpy rnd hn (fun s hs => (segLength_spec R (h s hs)).1) hpos ht h0 h1
  refine ⟨i, u, s, a1, a2, a3, a4, ?_⟩
  have hs : s ∈ p := List.mem_of_getElem? a1
  have hpart : |(((p.take i).map (segLength doubles R)).sum : ℚ) + u * (segLength doubles R s : ℚ) - (((p.take i).map drawn).sum + u * drawn s)| ≤
      (p.map drawn).sum * (9 / 2 ^ 53) + p.length * (1 / 2 ^ 536) := by
    obtain ⟨hi, hg⟩ := List.getElem?_eq_some_iff.1 a1
    have hsplit : (p.map drawn).sum = ((p.take i).map drawn).sum + drawn s + ((p.drop (i + 1)).map drawn).sum := by
      conv_lhs => rw [← List.take_append_drop i p, ← List.cons_getElem_drop_succ (h := hi), hg]
      rw [List.map_append, List.sum_append, List.map_cons, List.sum_cons, add_assoc]
    have r0 := drawn_sum_nonneg (p.drop (i + 1))
    have b1 := lengths_err R (p := p.take i) fun x hx => h x (List.mem_of_mem_take hx)
    have b2 := (segLength_spec R (h s hs)).2
    rw [List.length_take, Nat.min_eq_left hi.le] at b1
    have hi' : (i : ℝ) + 1 ≤ p.length := by exact_mod_cast hi
    have u0 : (0 : ℝ) ≤ u := by exact_mod_cast a3
    have u1 : (u : ℝ) ≤ 1 := by exact_mod_cast a4
    have hη : (0 : ℝ) ≤ 1 / 2 ^ 536 := by positivity
    have hd := drawn_nonneg s
    rw [hsplit]
    generalize (1 : ℝ) / 2 ^ 536 = η at *
    generalize ((((p.take i).map (segLength doubles R)).sum : ℚ) : ℝ) = A' at *
    generalize ((p.take i).map drawn).sum = A at *
    generalize ((segLength doubles R s : ℚ) : ℝ) = l at *
    generalize drawn s = d at *
    generalize ((p.drop (i + 1)).map drawn).sum = r at *
    generalize (p.length : ℝ) = n at *
    have b3 : |(u : ℝ) * (l - d)| ≤ d * (9 / 2 ^ 53) + η := by
      rw [abs_mul, abs_of_nonneg u0]
      calc (u : ℝ) * |l - d| ≤ 1 * |l - d| := by gcongr
        _ ≤ _ := by rw [one_mul]; exact b2
    have b4 : ((i : ℝ) + 1) * η ≤ n * η := by gcongr
    have e : A' + u * l - (A + u * d) = (A' - A) + u * (l - d) := by ring
    rw [e]
    refine (abs_add_le _ _).trans ?_
    linarith
  have c : |((((p.take i).map (segLength doubles R)).sum : ℚ) : ℝ) + u * (segLength doubles R s : ℚ) - t * ((p.map (segLength doubles R)).sum : ℚ)| ≤
      ((p.length : ℝ) + 3) / 2 ^ 51 * ((p.map (segLength doubles R)).sum : ℚ) := by
    have h4 := (Rat.cast_le (K := ℝ)).2 a5
    rw [Rat.cast_abs] at h4
    push_cast at h4 ⊢
    exact h4
  have t0 : (0 : ℝ) ≤ t := by exact_mod_cast h0.le
  have t1 : (t : ℝ) ≤ 1 := by
    have : t ≤ 1 := h1.trans (by
      have : (0 : ℚ) ≤ ((p.length : ℚ) + 1) / 2 ^ 51 := by positivity
      linarith)
    exact_mod_cast this
  generalize (p.length : ℝ) * (1 / 2 ^ 536) = nη at *
  generalize ((((p.take i).map (segLength doubles R)).sum : ℚ) : ℝ) = A' at *
  generalize ((p.take i).map drawn).sum = A at *
  generalize ((segLength doubles R s : ℚ) : ℝ) = l at *
  generalize (((p.map (segLength doubles R)).sum : ℚ) : ℝ) = L at *
  generalize drawn s = d at *
  generalize (p.map drawn).sum = D at *
  generalize (p.length : ℝ) = n at *
  have b3 : |(t : ℝ) * (L - D)| ≤ D * (9 / 2 ^ 53) + nη := by
    rw [abs_mul, abs_of_nonneg t0]
    calc (t : ℝ) * |L - D| ≤ 1 * |L - D| := by gcongr
      _ ≤ _ := by rw [one_mul]; exact hL
  have hLD : L ≤ D * (1 + 10 / 2 ^ 53) := by linarith [(abs_le.1 hL).2]
  have c2 : (n + 3) / 2 ^ 51 * L ≤ D * ((n + 3 + 1 / 4) / 2 ^ 51) := by
    calc (n + 3) / 2 ^ 51 * L ≤ (n + 3) / 2 ^ 51 * (D * (1 + 10 / 2 ^ 53)) := by gcongr
      _ = D * ((n + 3 + (n + 3) * (10 / 2 ^ 53)) / 2 ^ 51) := by ring
      _ ≤ _ := by gcongr; linarith
  have e : A + u * d - t * D = (A' + u * l - t * L) - (A' + u * l - (A + u * d)) + t * (L - D) := by ring
  have e2 : (n + 8) / 2 ^ 51 * D = D * ((n + 3 + 1 / 4) / 2 ^ 51) + D * (19 / 4 / 2 ^ 51) := by ring
  rw [e, e2]
  rw [abs_le] at *
  constructor <;> linarith [c.1, c.2, hpart.1, hpart.2, b3.1, b3.2]

theorem sqrt_zero (R : FloatRoot) : R.sqrt 0 = 0 := by
  have := R.err 0 le_rfl (double_iff.2 isDouble_zero)
  rw [zero_div, sub_zero, abs_of_nonneg (sq_nonneg _)] at this
  exact pow_eq_zero_iff (two_ne_zero) |>.1 (le_antisymm this (sq_nonneg _))

/-- **C148 fails** for very short lines, whatever root is used: the squares of the differences are rounded to 0, and so the length is 0, of
lines up to `2^-538` along an axis. The points of such a path are found as those of a path without any length (C143_zero). -/
theorem C148_tiny_wrong (R : FloatRoot) {x : ℚ} (hx : IsDouble x) (h0 : 0 < x) (h1 : x ≤ 1 / 2 ^ 538) (r sm : Bool) :
    Straight ⟨.line, some ⟨0, 0⟩, some ⟨x, 0⟩, r, sm⟩ ∧ (0 : ℝ) < drawn ⟨.line, some ⟨0, 0⟩, some ⟨x, 0⟩, r, sm⟩ ∧
      segLength doubles R ⟨.line, some ⟨0, 0⟩, some ⟨x, 0⟩, r, sm⟩ = 0 := by
  refine ⟨⟨.inr (.inl rfl), ?_, ?_⟩, ?_, ?_⟩
  · rintro p h
    obtain rfl : (⟨0, 0⟩ : Pt ℚ) = p := by simpa using h
    exact ⟨isDouble_zero, isDouble_zero⟩
  · rintro p h
    obtain rfl : (⟨x, 0⟩ : Pt ℚ) = p := by simpa using h
    exact ⟨hx, isDouble_zero⟩
  · have hxr : (0 : ℝ) < x := by exact_mod_cast h0
    refine Real.sqrt_pos.2 ?_
    have : (0 : ℝ) < ((0 : ℚ) - (x : ℝ)) ^ 2 := by
      rw [Rat.cast_zero, zero_sub, neg_sq]; positivity
    positivity
  · show R.sqrt (roundDouble (roundDouble (roundDouble (x - 0) * roundDouble (x - 0)) + roundDouble (roundDouble (0 - 0) * roundDouble (0 - 0)))) = 0
    have z : roundDouble (0 : ℚ) = 0 := double_iff.2 isDouble_zero
    have : roundDouble (x * x) = 0 := by
      have b := roundDouble_nearest (x * x) isDouble_zero
      have b0 := roundDouble_nonneg (mul_self_nonneg x)
      rw [zero_sub, abs_neg, abs_of_nonneg (mul_self_nonneg x)] at b
      have b1 : roundDouble (x * x) ≤ 2 * (x * x) := by linarith [(abs_le.1 b).2]
      have b2 : x * x ≤ (1 / 2 ^ 538) * (1 / 2 ^ 538) := mul_le_mul h1 h1 h0.le (by positivity)
      obtain ⟨j, hj⟩ := double_multiple (roundDouble_isDouble (x * x))
      rw [hj] at b0 b1 ⊢
      have hp : (0 : ℚ) < 2 ^ (-1074 : ℤ) := by positivity
      have e : (1 : ℚ) / 2 ^ 538 * (1 / 2 ^ 538) = 2 ^ (-1074 : ℤ) * (1 / 4) := by
        rw [zpow_neg, show (1074 : ℤ) = ((1074 : ℕ) : ℤ) from rfl, zpow_natCast, div_mul_div_comm, ← pow_add, show 538 + 538 = 1074 + 2 from rfl, pow_add]
        field_simp
        norm_num
      rw [e] at b2
      have j1 : (j : ℚ) < 1 := by
        by_contra hc
        push Not at hc
        nlinarith
      have j0 : (0 : ℚ) ≤ j := nonneg_of_mul_nonneg_left b0 hp
      have : j = 0 := by
        have a : j < 1 := by exact_mod_cast j1
        have b : 0 ≤ j := by exact_mod_cast j0
        omega
      rw [this, Int.cast_zero, zero_mul]
    rw [sub_zero, sub_zero, double_iff.2 hx, z, mul_zero, z, this, add_zero, z, sqrt_zero]

example (R : FloatRoot) : segLength doubles R ⟨.line, some ⟨0, 0⟩, some ⟨1 / 2 ^ 600, 0⟩, false, true⟩ = 0 :=
  (C148_tiny_wrong R (x := 1 / 2 ^ 600) ⟨1, -600, by
      rw [zpow_neg, show (600 : ℤ) = ((600 : ℕ) : ℤ) from rfl, zpow_natCast, Int.cast_one, one_mul, one_div], by norm_num, by norm_num⟩
    (by positivity) (by gcongr <;> norm_num) false true).2.2

/-- a double that is positive is at least `2^-1074` -/
theorem double_low {x : ℚ} (h : IsDouble x) (h0 : 0 < x) : 1 / 2 ^ 1074 ≤ x := by
  obtain ⟨j, rfl⟩ := double_multiple h
  have hp : (0 : ℚ) < 2 ^ (-1074 : ℤ) := by positivity
  have j0 : 0 < j := by
    have : (0 : ℚ) < j := (mul_pos_iff_of_pos_right hp).1 h0
    exact_mod_cast this
  have j1 : (1 : ℚ) ≤ j := by exact_mod_cast j0
  have e : (1 : ℚ) / 2 ^ 1074 = 2 ^ (-1074 : ℤ) := by
    rw [zpow_neg, show (1074 : ℤ) = ((1074 : ℕ) : ℤ) from rfl, zpow_natCast, one_div]
  rw [e]
  nlinarith

/-- doubles have roots as `FloatRoot` assumes -/
theorem root_exists : Nonempty FloatRoot := by
  have key : ∀ x : ℚ, ∃ r : ℚ, 0 ≤ r ∧ IsDouble r ∧ (0 ≤ x → IsDouble x → |r ^ 2 - x| ≤ x / 2 ^ 51) := by
    intro x
    by_cases hx : 0 < x ∧ IsDouble x
    · obtain ⟨h0, hd⟩ := hx
      have low := double_low hd h0
      have hxr : (0 : ℝ) < x := by exact_mod_cast h0
      have hs := Real.sqrt_pos.2 hxr
      obtain ⟨q, q1, q2⟩ := exists_rat_btwn (show Real.sqrt x < Real.sqrt x * (1 + 1 / 2 ^ 60) by nlinarith)
      have q0 : (0 : ℝ) < q := hs.trans q1
      have Q0 : 0 < q := by exact_mod_cast q0
      have sq : Real.sqrt x ^ 2 = x := Real.sq_sqrt hxr.le
      have l1 : x ≤ q ^ 2 := by
        have : (x : ℝ) ≤ (q : ℝ) ^ 2 := by rw [← sq]; gcongr
        exact_mod_cast this
      have l2 : q ^ 2 ≤ x * (1 + 1 / 2 ^ 58) := by
        have : (q : ℝ) ^ 2 ≤ x * (1 + 1 / 2 ^ 58) := by
          calc (q : ℝ) ^ 2 ≤ (Real.sqrt x * (1 + 1 / 2 ^ 60)) ^ 2 := by gcongr
            _ = (x : ℝ) * (1 + 1 / 2 ^ 60) ^ 2 := by rw [mul_pow, sq]
            _ ≤ _ := mul_le_mul_of_nonneg_left (by norm_num) hxr.le
        have h2 : ((q ^ 2 : ℚ) : ℝ) ≤ ((x * (1 + 1 / 2 ^ 58) : ℚ) : ℝ) := by push_cast; exact this
        exact_mod_cast h2
      have hq : 1 / 2 ^ 537 ≤ q := by
        have : ((1 : ℚ) / 2 ^ 537) ^ 2 ≤ q ^ 2 := by
          rw [div_pow, one_pow, ← pow_mul]
          exact low.trans l1
        exact (pow_le_pow_iff_left₀ (by positivity) Q0.le two_ne_zero).1 this
      refine ⟨roundDouble q, roundDouble_nonneg Q0.le, roundDouble_isDouble _, fun _ _ => ?_⟩
      have e := roundDouble_err q
      rw [abs_of_pos Q0] at e
      have tiny : (1 : ℚ) / 2 ^ 1074 ≤ q * (1 / 2 ^ 100) := by
        calc (1 : ℚ) / 2 ^ 1074 = 1 / 2 ^ 537 * (1 / 2 ^ 537) := by rw [div_mul_div_comm, ← pow_add, one_mul]
          _ ≤ q * (1 / 2 ^ 100) := by gcongr <;> norm_num
      generalize (1 : ℚ) / 2 ^ 1074 = η at *
      generalize roundDouble q = r at *
      have e' : |r - q| ≤ q * (101 / 100 / 2 ^ 53) := by
        refine e.trans ?_
        have : q * (101 / 100 / 2 ^ 53) = q / 2 ^ 53 + q * (1 / 100 / 2 ^ 53) := by ring
        have : q * (1 / 2 ^ 100) ≤ q * (1 / 100 / 2 ^ 53) := mul_le_mul_of_nonneg_left (by norm_num) Q0.le
        linarith
      have f : |r ^ 2 - q ^ 2| ≤ q ^ 2 * (203 / 100 / 2 ^ 53) := by
        rw [show r ^ 2 - q ^ 2 = (r - q) * (r - q + 2 * q) by ring, abs_mul]
        have g : |r - q + 2 * q| ≤ q * (2 + 101 / 100 / 2 ^ 53) := by
          refine (abs_add_le _ _).trans ?_
          rw [abs_of_pos (by linarith : 0 < 2 * q)]
          linarith
        calc |r - q| * |r - q + 2 * q| ≤ (q * (101 / 100 / 2 ^ 53)) * (q * (2 + 101 / 100 / 2 ^ 53)) :=
              mul_le_mul e' g (abs_nonneg _) (by positivity)
          _ = q ^ 2 * (101 / 100 / 2 ^ 53 * (2 + 101 / 100 / 2 ^ 53)) := by ring
          _ ≤ _ := by gcongr; norm_num
      rw [abs_le] at *
      constructor <;> linarith [f.1, f.2]
    · refine ⟨0, le_rfl, isDouble_zero, fun h0 hd => ?_⟩
      have : x = 0 := by
        by_contra hne
        exact hx ⟨lt_of_le_of_ne h0 (Ne.symm hne), hd⟩
      rw [this]
      norm_num
  choose f f0 f1 f2 using key
  exact ⟨⟨f, f0, fun x => double_iff.2 (f1 x), fun x h0 hd => f2 x h0 (double_iff.1 hd)⟩⟩

/-- the hypotheses are met: seven lines of length 1 -/
example : exSeven.length ≤ 2 ^ 40 ∧ (∀ s ∈ exSeven, Straight s) ∧ 1 / 2 ^ 400 ≤ (exSeven.map drawn).sum ∧ IsDouble (1 / 2) ∧
    (1 / 2 : ℚ) ≤ 1 - ((exSeven.length : ℚ) + 1) / 2 ^ 51 := by
  refine ⟨by decide +kernel, ?_, ?_, ⟨1, -1, by norm_num, by norm_num, by norm_num⟩, by decide +kernel⟩
  · have hi : ∀ n : ℤ, |n| ≤ 2 ^ 53 → IsDouble n := fun n h => isDouble_int h
    have h : ∀ s ∈ exSeven, (s.kind = .move ∨ s.kind = .line ∨ s.kind = .close) ∧
        (∀ p ∈ s.start, p.x.den = 1 ∧ |p.x.num| ≤ 2 ^ 53 ∧ p.y.den = 1 ∧ |p.y.num| ≤ 2 ^ 53) ∧
        ∀ p ∈ s.stop, p.x.den = 1 ∧ |p.x.num| ≤ 2 ^ 53 ∧ p.y.den = 1 ∧ |p.y.num| ≤ 2 ^ 53 := by
      decide +kernel
    have hw : ∀ x : ℚ, x.den = 1 → |x.num| ≤ 2 ^ 53 → IsDouble x := by
      intro x h1 h2
      have := hi x.num h2
      rwa [Rat.coe_int_num_of_den_eq_one h1] at this
    intro s hs
    obtain ⟨a, b, c⟩ := h s hs
    exact ⟨a, fun p hp => ⟨hw _ (b p hp).1 (b p hp).2.1, hw _ (b p hp).2.2.1 (b p hp).2.2.2⟩,
      fun p hp => ⟨hw _ (c p hp).1 (c p hp).2.1, hw _ (c p hp).2.2.1 (c p hp).2.2.2⟩⟩
  · have one : drawn ⟨.line, some ⟨0, 0⟩, some ⟨1, 0⟩, false, true⟩ = 1 := by
      simp [drawn, dist]
    have hm : (⟨.line, some ⟨0, 0⟩, some ⟨1, 0⟩, false, true⟩ : Seg ℚ) ∈ exSeven := by decide +kernel
    have : (1 : ℝ) ≤ (exSeven.map drawn).sum := by
      rw [← one]
      exact List.single_le_sum (by simpa using fun s _ => drawn_nonneg s) _ (List.mem_map_of_mem hm)
    refine le_trans ?_ this
    rw [div_le_one (by positivity)]
    exact one_le_pow₀ (by norm_num)

end Svgio.Props
