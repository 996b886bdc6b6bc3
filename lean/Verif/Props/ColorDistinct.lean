import Verif.Props.ColorChannels
import Mathlib.Tactic.FinCases
import Mathlib.Data.Fin.VecNotation
import Mathlib.Data.Fintype.Basic

/-! C12: `Color.distinct`. -/

namespace Svgio.Props
open Svgio.Spec

/-- `r` computes integer cube roots exactly. -/
def ExactCbrt (r : ℕ → ℕ) : Prop := ∀ i, r i ^ 3 ≤ i ∧ i < (r i + 1) ^ 3

theorem cbrt_unique {r : ℕ → ℕ} (hr : ExactCbrt r) {i n : ℕ} (h1 : n ^ 3 ≤ i) (h2 : i < (n + 1) ^ 3) :
    r i = n := by
  have h := hr i
  have a : ¬ n + 1 ≤ r i := fun hh => by
    have := Nat.pow_le_pow_left hh 3
    omega
  have b : ¬ r i + 1 ≤ n := fun hh => by
    have := Nat.pow_le_pow_left hh 3
    omega
  omega

/-- The possible values of the enumeration in shell `n`. -/
inductive Shell (n i : ℕ) (p : Fin 3 → ℤ) : Prop
  | all (hi : i = n ^ 3) (hp : p = fun _ => (n : ℤ))
  | one (v : Fin 3) (m : ℕ) (hm : m < n) (hi : i = n ^ 3 + 1 + 3 * m + v)
      (hp : p = Function.update (fun _ => (n : ℤ)) v (m : ℤ))
  | two (v : Fin 3) (a b : ℕ) (ha : a < n) (hb : b < n)
      (hi : i = n ^ 3 + 1 + 3 * (n + a * n + b) + v)
      (hp : p = Function.update (Function.update (fun _ => (n : ℤ)) v (a : ℤ)) (v + 1) (b : ℤ))

theorem pattern_shell {r : ℕ → ℕ} (hr : ExactCbrt r) (i : ℕ) :
    Shell (r i) i (Color.pattern r i) := by
  obtain ⟨h1, h2⟩ := hr i
  set n := r i with hn
  obtain ⟨k, hk⟩ := Nat.exists_eq_add_of_le h1
  have hkz : (i : ℤ) - n * n * n = k := by
    rw [hk]; push_cast; ring
  have hk2 : k < 3 * n * n + 3 * n + 1 := by nlinarith
  unfold Color.pattern
  simp only [← hn, hkz]
  by_cases h0 : k = 0
  · subst h0
    exact Shell.all (by omega) (by simp)
  · obtain ⟨j, rfl⟩ := Nat.exists_eq_succ_of_ne_zero h0
    have hc : ((j.succ : ℕ) : ℤ) ≠ 0 := by exact_mod_cast h0
    have hj : ((j.succ : ℕ) : ℤ) - 1 = (j : ℤ) := by push_cast; ring
    rw [if_neg hc]
    simp only [hj]
    have hm3 : ((j : ℤ) % 3).toNat = j % 3 := by omega
    have hd3 : (j : ℤ) / 3 = ((j / 3 : ℕ) : ℤ) := by push_cast; rfl
    have hjd : j = 3 * (j / 3) + j % 3 := (Nat.div_add_mod j 3).symm
    simp only [hm3, hd3]
    by_cases hlt : j / 3 < n
    · rw [if_pos (by exact_mod_cast hlt)]
      refine Shell.one ⟨j % 3, Nat.mod_lt _ (by norm_num)⟩ (j / 3) hlt ?_ ?_
      · simp only; omega
      · congr 1
        rw [Int.emod_eq_of_lt (by positivity) (by exact_mod_cast hlt)]
    · rw [if_neg (by exact_mod_cast hlt)]
      have hsub : ((j / 3 : ℕ) : ℤ) - n = ((j / 3 - n : ℕ) : ℤ) := by push_cast [not_lt.mp hlt]; ring
      rw [hsub]
      set q := j / 3 - n with hq
      have hnpos : 0 < n := by
        rcases Nat.eq_zero_or_pos n with h | h
        · rw [h] at hk2; omega
        · exact h
      have hqlt : q < n * n := by nlinarith
      refine Shell.two ⟨j % 3, Nat.mod_lt _ (by norm_num)⟩ (q / n) (q % n)
        (Nat.div_lt_of_lt_mul hqlt) (Nat.mod_lt _ hnpos) ?_ ?_
      · have hqd : q / n * n + q % n = q := by rw [mul_comm]; exact Nat.div_add_mod q n
        simp only
        rw [show n + q / n * n + q % n = n + (q / n * n + q % n) by ring, hqd]
        omega
      · push_cast
        rfl

theorem shell_of_triple (p : Fin 3 → ℕ) : ∃ n i, Shell n i (fun k => (p k : ℤ)) ∧ n ^ 3 ≤ i ∧ i < (n + 1) ^ 3 ∧
    (∀ k, p k ≤ n) ∧ (∃ k, p k = n) := by
  obtain ⟨n, hle, hex⟩ : ∃ n, (∀ k, p k ≤ n) ∧ (∃ k, p k = n) := by
    refine ⟨max (p 0) (max (p 1) (p 2)), ?_, ?_⟩
    · intro k; fin_cases k <;> simp
    · rcases le_total (p 1) (p 2) with h | h
      · rcases le_total (p 0) (p 2) with h' | h'
        · exact ⟨2, by omega⟩
        · exact ⟨0, by omega⟩
      · rcases le_total (p 0) (p 1) with h' | h'
        · exact ⟨1, by omega⟩
        · exact ⟨0, by omega⟩
  have e3 : (n + 1) ^ 3 = n ^ 3 + 3 * (n * n) + 3 * n + 1 := by ring
  have mulb : ∀ a b, a < n → b < n → a * n + b < n * n := by
    intro a b ha hb
    nlinarith
  have key : (∃ i, Shell n i (fun k => (p k : ℤ)) ∧ n ^ 3 ≤ i ∧ i < (n + 1) ^ 3) := by
    have h0 := hle 0
    have h1 := hle 1
    have h2 := hle 2
    rcases Nat.lt_or_ge (p 0) n with a0 | a0 <;> rcases Nat.lt_or_ge (p 1) n with a1 | a1 <;>
      rcases Nat.lt_or_ge (p 2) n with a2 | a2
    · obtain ⟨k, hk⟩ := hex
      fin_cases k <;> simp at hk <;> omega
    · have e2 : p 2 = n := by omega
      have := mulb _ _ a0 a1
      refine ⟨_, Shell.two 0 (p 0) (p 1) a0 a1 rfl ?_, ?_, ?_⟩
      · funext k; fin_cases k <;> simp [Function.update, e2]
      · omega
      · simp only [Fin.val_zero]; omega
    · have e1 : p 1 = n := by omega
      have := mulb _ _ a2 a0
      refine ⟨_, Shell.two 2 (p 2) (p 0) a2 a0 rfl ?_, ?_, ?_⟩
      · funext k; fin_cases k <;> simp [Function.update, e1]
      · omega
      · simp only [Fin.val_two]; omega
    · have e1 : p 1 = n := by omega
      have e2 : p 2 = n := by omega
      refine ⟨_, Shell.one 0 (p 0) a0 rfl ?_, ?_, ?_⟩
      · funext k; fin_cases k <;> simp [Function.update, e1, e2]
      · omega
      · simp only [Fin.val_zero]; omega
    · have e0 : p 0 = n := by omega
      have := mulb _ _ a1 a2
      refine ⟨_, Shell.two 1 (p 1) (p 2) a1 a2 rfl ?_, ?_, ?_⟩
      · funext k; fin_cases k <;> simp [Function.update, e0]
      · omega
      · simp only [Fin.val_one]; omega
    · have e0 : p 0 = n := by omega
      have e2 : p 2 = n := by omega
      refine ⟨_, Shell.one 1 (p 1) a1 rfl ?_, ?_, ?_⟩
      · funext k; fin_cases k <;> simp [Function.update, e0, e2]
      · omega
      · simp only [Fin.val_one]; omega
    · have e1 : p 1 = n := by omega
      have e0 : p 0 = n := by omega
      refine ⟨_, Shell.one 2 (p 2) a2 rfl ?_, ?_, ?_⟩
      · funext k; fin_cases k <;> simp [Function.update, e1, e0]
      · omega
      · simp only [Fin.val_two]; omega
    · have e1 : p 1 = n := by omega
      have e0 : p 0 = n := by omega
      have e2 : p 2 = n := by omega
      refine ⟨_, Shell.all rfl ?_, ?_, ?_⟩
      · funext k; fin_cases k <;> simp [e0, e1, e2]
      · omega
      · omega
  obtain ⟨i, hs, hi1, hi2⟩ := key
  exact ⟨n, i, hs, hi1, hi2, hle, hex⟩

/-- coordinates of a shell -/
theorem shell_coords {n i : ℕ} {p : Fin 3 → ℤ} (h : Shell n i p) :
    (∀ k, 0 ≤ p k ∧ p k ≤ n) ∧ ∃ k, p k = n := by
  rcases h with ⟨hi, rfl⟩ | ⟨v, m, hm, hi, rfl⟩ | ⟨v, a, b, ha, hb, hi, rfl⟩
  · exact ⟨fun k => by simp, 0, rfl⟩
  · refine ⟨fun k => ?_, v + 1, ?_⟩
    · unfold Function.update; split
      · rename_i h; subst h; simp; omega
      · simp
    · unfold Function.update; fin_cases v <;> simp
  · refine ⟨fun k => ?_, v + 2, ?_⟩
    · fin_cases v <;> fin_cases k <;> simp [Function.update] <;> omega
    · fin_cases v <;> simp [Function.update]

/-- the index is determined by the triple -/
theorem shell_inj {n i j : ℕ} {p : Fin 3 → ℤ} (h : Shell n i p) (h' : Shell n j p) : i = j := by
  rcases h with ⟨hi, hp⟩ | ⟨v, m, hm, hi, hp⟩ | ⟨v, a, b, ha, hb, hi, hp⟩ <;>
  rcases h' with ⟨hi', hp'⟩ | ⟨v', m', hm', hi', hp'⟩ | ⟨v', a', b', ha', hb', hi', hp'⟩ <;>
  (rw [hp] at hp'
   have q0 := congrFun hp' 0
   have q1 := congrFun hp' 1
   have q2 := congrFun hp' 2
   clear hp hp')
  · omega
  · fin_cases v' <;> simp [Function.update] at q0 q1 q2 <;> omega
  · fin_cases v' <;> simp [Function.update] at q0 q1 q2 <;> omega
  · fin_cases v <;> simp [Function.update] at q0 q1 q2 <;> omega
  · fin_cases v <;> fin_cases v' <;> simp [Function.update] at q0 q1 q2 hi hi' <;> omega
  · fin_cases v <;> fin_cases v' <;> simp [Function.update] at q0 q1 q2 hi hi' <;> omega
  · fin_cases v <;> simp [Function.update] at q0 q1 q2 <;> omega
  · fin_cases v <;> fin_cases v' <;> simp [Function.update] at q0 q1 q2 hi hi' <;> omega
  · fin_cases v <;> fin_cases v' <;> simp [Function.update] at q0 q1 q2 hi hi' <;>
      first
      | omega
      | (have e1 : a = a' := by omega
         have e2 : b = b' := by omega
         subst e1; subst e2; omega)

theorem rev8_range (n : ℤ) (h0 : 0 ≤ n) (h1 : n ≤ 255) : 0 ≤ Color.rev8 n ∧ Color.rev8 n ≤ 255 := by
  have : ∀ m : Fin 256, 0 ≤ Color.rev8 (m.val : ℤ) ∧ Color.rev8 (m.val : ℤ) ≤ 255 := by decide +kernel
  have h := this ⟨n.toNat, by omega⟩
  simpa [Int.toNat_of_nonneg h0] using h

/-- bit reversal is undone by a table -/
def unrev8 (y : ℤ) : ℤ := ((List.range 256).find? (fun m => Color.rev8 (m : ℤ) = y)).getD 0

theorem unrev8_rev8 (n : ℤ) (h0 : 0 ≤ n) (h1 : n ≤ 255) : unrev8 (Color.rev8 n) = n := by
  have : ∀ m : Fin 256, unrev8 (Color.rev8 (m.val : ℤ)) = m.val := by decide +kernel
  have h := this ⟨n.toNat, by omega⟩
  simpa [Int.toNat_of_nonneg h0] using h

theorem rev8_surj (y : ℤ) (h0 : 0 ≤ y) (h1 : y ≤ 255) : ∃ n : ℕ, n ≤ 255 ∧ Color.rev8 (n : ℤ) = y := by
  have : ∀ m : Fin 256, ∃ n : Fin 256, Color.rev8 (n.val : ℤ) = m.val := by decide +kernel
  obtain ⟨n, hn⟩ := this ⟨y.toNat, by omega⟩
  refine ⟨n.val, by omega, ?_⟩
  rw [hn]
  simp only
  omega

theorem pattern_range {r : ℕ → ℕ} (hr : ExactCbrt r) {i : ℕ} (hi : i < 256 ^ 3) (k : Fin 3) :
    0 ≤ Color.pattern r i k ∧ Color.pattern r i k ≤ 255 := by
  have h := (shell_coords (pattern_shell hr i)).1 k
  have : r i ≤ 255 := by
    by_contra hh
    have := Nat.pow_le_pow_left (show 256 ≤ r i by omega) 3
    have := (hr i).1
    omega
  omega

/-- channels of `distinct` -/
theorem distinct_channels (F : FloatRounding) {r : ℕ → ℕ} (hr : ExactCbrt r) {i : ℕ} (hi : i < 256 ^ 3) :
    Color.red (Color.distinct F r i) = some (Color.rev8 (Color.pattern r i 0)) ∧
    Color.green (Color.distinct F r i) = some (Color.rev8 (Color.pattern r i 1)) ∧
    Color.blue (Color.distinct F r i) = some (Color.rev8 (Color.pattern r i 2)) ∧
    Color.alpha (Color.distinct F r i) = some 255 := by
  have p := fun k => rev8_range _ (pattern_range hr hi k).1 (pattern_range hr hi k).2
  obtain ⟨w, hw, -, -, h3, h2, h1, h0⟩ := C02_rgb F (Color.rev8 (Color.pattern r i 0))
    (Color.rev8 (Color.pattern r i 1)) (Color.rev8 (Color.pattern r i 2))
  have e : ∀ k, clampI (Color.rev8 (Color.pattern r i k)) = Color.rev8 (Color.pattern r i k) := by
    intro k; have := p k; unfold clampI; omega
  rw [e] at h3 h2 h1
  unfold Color.distinct
  simp only [hw]
  exact ⟨h3, h2, h1, h0⟩

/-- **C12 (partial).** With an exact integer cube root, `distinct` gives different colours to different
indices below `256^3`, and every opaque colour is reached. What is missing for the full claim: the code
takes the cube root in floating point, see `C12_float_root_collision`. -/
theorem C12_distinct_partial (F : FloatRounding) (r : ℕ → ℕ) (hr : ExactCbrt r) :
    (∀ i j, i < 256 ^ 3 → j < 256 ^ 3 → i ≠ j →
      Color.eq (Color.distinct F r i) (Color.distinct F r j) = false) ∧
    (∀ red green blue : ℤ, 0 ≤ red → red ≤ 255 → 0 ≤ green → green ≤ 255 → 0 ≤ blue → blue ≤ 255 →
      ∃ i < 256 ^ 3, Color.red (Color.distinct F r i) = some red ∧
        Color.green (Color.distinct F r i) = some green ∧ Color.blue (Color.distinct F r i) = some blue) := by
  constructor
  · intro i j hi hj hne
    by_contra hcon
    have heq : Color.eq (Color.distinct F r i) (Color.distinct F r j) = true := by simpa using hcon
    rw [C07_eq_iff] at heq
    obtain ⟨i3, i2, i1, -⟩ := distinct_channels F hr hi
    obtain ⟨j3, j2, j1, -⟩ := distinct_channels F hr hj
    unfold Color.distinct Color.mk3 at heq i3 i2 i1 j3 j2 j1
    simp only [sameColor] at heq
    have e3 := heq .red
    have e2 := heq .green
    have e1 := heq .blue
    simp only [Chan.get] at e3 e2 e1
    rw [i3, j3] at e3
    rw [i2, j2] at e2
    rw [i1, j1] at e1
    have u : ∀ k, Color.rev8 (Color.pattern r i k) = Color.rev8 (Color.pattern r j k) →
        Color.pattern r i k = Color.pattern r j k := by
      intro k h
      rw [← unrev8_rev8 _ (pattern_range hr hi k).1 (pattern_range hr hi k).2, h,
        unrev8_rev8 _ (pattern_range hr hj k).1 (pattern_range hr hj k).2]
    have hp : Color.pattern r i = Color.pattern r j := by
      funext k
      fin_cases k
      · exact u 0 (Option.some.inj e3)
      · exact u 1 (Option.some.inj e2)
      · exact u 2 (Option.some.inj e1)
    have si := pattern_shell hr i
    have sj := pattern_shell hr j
    rw [hp] at si
    have hn : r i = r j := by
      obtain ⟨bi, k, hk⟩ := shell_coords si
      obtain ⟨bj, l, hl⟩ := shell_coords sj
      have := (bj k).2
      have := (bi l).2
      omega
    rw [hn] at si
    exact hne (shell_inj si sj)
  · intro red green blue r0 r1 g0 g1 b0 b1
    obtain ⟨x, hx, hxe⟩ := rev8_surj red r0 r1
    obtain ⟨y, hy, hye⟩ := rev8_surj green g0 g1
    obtain ⟨z, hz, hze⟩ := rev8_surj blue b0 b1
    obtain ⟨n, i, hs, hi1, hi2, hle, k, hk⟩ := shell_of_triple ![x, y, z]
    have hn : n ≤ 255 := by
      rw [← hk]
      fin_cases k <;> simpa
    have hi : i < 256 ^ 3 := by
      have := Nat.pow_le_pow_left (show n + 1 ≤ 256 by omega) 3
      omega
    have hri : r i = n := cbrt_unique hr hi1 hi2
    have hpat : Color.pattern r i = fun k => ((![x, y, z] k : ℕ) : ℤ) := by
      have sp := pattern_shell hr i
      rw [hri] at sp
      -- the triple in shell `n` with index `i` is unique
      rcases sp with ⟨hi', hp⟩ | ⟨v, m, hm, hi', hp⟩ | ⟨v, a, b, ha, hb, hi', hp⟩ <;>
      rcases hs with ⟨hi'', hp'⟩ | ⟨v', m', hm', hi'', hp'⟩ | ⟨v', a', b', ha', hb', hi'', hp'⟩ <;>
      rw [hp, hp'] <;> try omega
      · have ev : v = v' := by apply Fin.ext; omega
        have em : m = m' := by omega
        rw [ev, em]
      · have ev : v = v' := by apply Fin.ext; omega
        subst ev
        have eab : a * n + b = a' * n + b' := by omega
        have hnpos : 0 < n := by omega
        have ea : a = a' := by
          have h1 : (a * n + b) / n = a := by
            rw [mul_comm, Nat.mul_add_div hnpos, Nat.div_eq_of_lt hb]; omega
          have h2 : (a' * n + b') / n = a' := by
            rw [mul_comm, Nat.mul_add_div hnpos, Nat.div_eq_of_lt hb']; omega
          rw [eab] at h1
          omega
        subst ea
        have eb : b = b' := by omega
        rw [eb]
    obtain ⟨h3, h2, h1, -⟩ := distinct_channels F hr hi
    refine ⟨i, hi, ?_, ?_, ?_⟩
    · rw [h3, hpat]; simp [hxe]
    · rw [h2, hpat]; simp [hye]
    · rw [h1, hpat]; simp [hze]

/-- An exact cube root exists (the hypothesis of `C12_distinct_partial` is met). -/
theorem exactCbrt_exists : ∃ r, ExactCbrt r := by
  have : ∀ i : ℕ, ∃ n, n ^ 3 ≤ i ∧ i < (n + 1) ^ 3 := by
    intro i
    induction i with
    | zero => exact ⟨0, by norm_num⟩
    | succ i ih =>
      obtain ⟨n, h1, h2⟩ := ih
      by_cases h : i + 1 < (n + 1) ^ 3
      · exact ⟨n, by omega, h⟩
      · refine ⟨n + 1, by omega, ?_⟩
        have := Nat.pow_lt_pow_left (show n + 1 < n + 1 + 1 by omega) (show 3 ≠ 0 by norm_num)
        omega
  choose r hr using this
  exact ⟨r, hr⟩

/-- **C12.** In floating point `64 ** (1.0 / 3.0)` is 3.9999999999999996, so that the computed root of 64 is
3 (and that of 29 is 3 as well); with any root function with these two values the indices 29 and 64 get the same
colour: the full claim is false of the code. -/
theorem C12_float_root_collision (F : FloatRounding) (r : ℕ → ℕ) (h64 : r 64 = 3) (h29 : r 29 = 3) :
    Color.distinct F r 64 = Color.distinct F r 29 := by
  have loc : ∀ (r s : ℕ → ℕ) (i : ℕ), r i = s i → Color.pattern r i = Color.pattern s i := by
    intro r s i h
    unfold Color.pattern
    simp only [h]
  have : Color.pattern r 64 = Color.pattern r 29 := by
    rw [loc r (fun _ => 3) 64 h64, loc r (fun _ => 3) 29 h29]
    funext k
    fin_cases k <;> decide +kernel
  unfold Color.distinct
  rw [this]

example : Color.pattern (fun _ => 3) 64 = Color.pattern (fun _ => 3) 29 := by
  funext k; fin_cases k <;> decide +kernel

end Svgio.Props
