import Verif.Model.Viewbox
import Verif.Spec.Viewbox
import Verif.Props.Transform

/-!
The viewBox transform: C32, C33, C34; reading and printing a viewBox: C75.
-/

namespace Svgio.Props

open Svgio Spec Viewbox

section
variable {K : Type} [Field K] [LinearOrder K]

/-- **C32.** With `none` as the first word of preserveAspectRatio, whatever follows it, the transform maps the corners of
the viewBox to the corners of the element. -/
theorem C32_none (ex ey ew eh vx vy vw vh : K) (hw : vw ≠ 0) (hh : vh ≠ 0) (rest : List Char)
    (hr : rest = [] ∨ ∃ r, rest = ' ' :: r) :
    ∃ f, fit ex ey ew eh vx vy vw vh (some ("none".toList ++ rest)) = .ok f ∧
      f.translateX + f.scaleX * vx = ex ∧ f.translateX + f.scaleX * (vx + vw) = ex + ew ∧
      f.translateY + f.scaleY * vy = ey ∧ f.translateY + f.scaleY * (vy + vh) = ey + eh := by
  have ha : (aspectWords (some ("none".toList ++ rest))).1 = ['n', 'o', 'n', 'e'] := by
    rcases hr with rfl | ⟨r, rfl⟩ <;> simp [aspectWords, splitSpace]
  have hl : ∀ w ∈ [['x', 'm', 'i', 'd'], ['x', 'm', 'a', 'x'], ['y', 'm', 'i', 'd'], ['y', 'm', 'a', 'x']],
      contains w (List.flatMap Color.lowerChar ['n', 'o', 'n', 'e']) = false := by decide
  simp only [fit, ha, hw, hh, if_false, hl _ (by simp : ['x', 'm', 'i', 'd'] ∈ _),
    hl _ (by simp : ['x', 'm', 'a', 'x'] ∈ _), hl _ (by simp : ['y', 'm', 'i', 'd'] ∈ _),
    hl _ (by simp : ['y', 'm', 'a', 'x'] ∈ _), ne_eq, not_true_eq_false, false_and, Bool.false_eq_true]
  refine ⟨_, rfl, ?_, ?_, ?_, ?_⟩ <;> simp only [] <;> field_simp <;> ring

/-- `none`, and `none` with a word after it, are as the theorem asks for -/
example : (fit 10 20 100 50 1 1 10 10 (some "none".toList)).map (fun f => (f.translateX, f.scaleX, f.translateY, f.scaleY)) =
    .ok ((0, 10, 15, 5) : ℚ × ℚ × ℚ × ℚ) ∧ "none slice".toList = "none".toList ++ ' ' :: "slice".toList := by decide +kernel

variable [IsStrictOrderedRing K]

/-- the numbers, for one of the nine alignments -/
theorem fit_align (ax ay : Align) (second : List Char) (hs : second = [] ∨ second = " meet".toList ∨ second = " slice".toList)
    (ex ey ew eh vx vy vw vh : K) (hw : vw ≠ 0) (hh : vh ≠ 0) :
    ∃ f, fit ex ey ew eh vx vy vw vh (some (aspectText ax ay second)) = .ok f ∧ f.scaleX = f.scaleY ∧
      f.scaleX = (if second = " slice".toList then max (ew / vw) (eh / vh) else min (ew / vw) (eh / vh)) ∧
      Aligned ax f.translateX f.scaleX ex ew vx vw ∧ Aligned ay f.translateY f.scaleY ey eh vy vh := by
  have hal : (aspectWords (some (aspectText ax ay second))).1 = aspectText ax ay [] ∧
      (aspectWords (some (aspectText ax ay second))).2 =
        (if second = " slice".toList then ['s', 'l', 'i', 'c', 'e'] else ['m', 'e', 'e', 't']) := by
    rcases hs with rfl | rfl | rfl <;> cases ax <;> cases ay <;> decide
  have hn : aspectText ax ay [] ≠ ['n', 'o', 'n', 'e'] := by cases ax <;> cases ay <;> decide
  have h1 : contains ['x', 'm', 'i', 'd'] ((aspectText ax ay []).flatMap Color.lowerChar) = decide (ax = .mid) := by
    cases ax <;> cases ay <;> decide
  have h2 : contains ['x', 'm', 'a', 'x'] ((aspectText ax ay []).flatMap Color.lowerChar) = decide (ax = .max) := by
    cases ax <;> cases ay <;> decide
  have h3 : contains ['y', 'm', 'i', 'd'] ((aspectText ax ay []).flatMap Color.lowerChar) = decide (ay = .mid) := by
    cases ax <;> cases ay <;> decide
  have h4 : contains ['y', 'm', 'a', 'x'] ((aspectText ax ay []).flatMap Color.lowerChar) = decide (ay = .max) := by
    cases ax <;> cases ay <;> decide
  have key : ∀ s : K, ∀ (a : Align) (e es v vs : K),
      Aligned a (let t := e - v * s
        let t := if decide (a = .mid) = true then t + (es - vs * s) / 2 else t
        if decide (a = .max) = true then t + (es - vs * s) else t) s e es v vs := by
    intro s a e es v vs
    cases a <;> simp [Aligned] <;> ring
  simp only [fit, hal.1, hal.2, hw, hh, if_false, h1, h2, h3, h4]
  rcases hs with rfl | rfl | rfl
  · refine ⟨_, rfl, ?_, ?_, ?_, ?_⟩
    · simp [hn]
    · simp [hn]
    · simpa [hn] using key (min (ew / vw) (eh / vh)) ax ex ew vx vw
    · simpa [hn] using key (min (ew / vw) (eh / vh)) ay ey eh vy vh
  · refine ⟨_, rfl, ?_, ?_, ?_, ?_⟩
    · simp [hn]
    · simp [hn]
    · simpa [hn] using key (min (ew / vw) (eh / vh)) ax ex ew vx vw
    · simpa [hn] using key (min (ew / vw) (eh / vh)) ay ey eh vy vh
  · refine ⟨_, rfl, ?_, ?_, ?_, ?_⟩
    · simp [hn]
    · simp [hn]
    · simpa [hn] using key (max (ew / vw) (eh / vh)) ax ex ew vx vw
    · simpa [hn] using key (max (ew / vw) (eh / vh)) ay ey eh vy vh

/-- a range that is no longer than the other and aligned with it lies inside -/
theorem aligned_inside {a : Align} {t s e es v vs : K} (h : Aligned a t s e es v vs) :
    (s * vs ≤ es → e ≤ t + s * v ∧ t + s * (v + vs) ≤ e + es) ∧
    (es ≤ s * vs → t + s * v ≤ e ∧ e + es ≤ t + s * (v + vs)) := by
  cases a <;> simp only [Aligned] at h <;>
    refine ⟨fun hl => ⟨?_, ?_⟩, fun hl => ⟨?_, ?_⟩⟩ <;>
    rw [← sub_nonneg] at * <;> linarith [mul_add s v vs, mul_add s v (vs / 2), mul_div_assoc s vs 2]

/-- **C33.** For each of the nine alignments `xMin`, `xMid`, `xMax` with `YMin`, `YMid`, `YMax`, alone or followed by `meet`
or `slice`: the scale is the same in both directions; the sides or the middles named by the alignment agree; the mapped
viewBox has the width or the height of the element; with meet (also when the word is missing) it lies inside the element, and
with slice it covers the element. -/
theorem C33_align (ax ay : Align) (second : List Char)
    (hs : second = [] ∨ second = " meet".toList ∨ second = " slice".toList)
    (ex ey ew eh vx vy vw vh : K) (hw : 0 < vw) (hh : 0 < vh) :
    ∃ f, fit ex ey ew eh vx vy vw vh (some (aspectText ax ay second)) = .ok f ∧ f.scaleX = f.scaleY ∧
      Aligned ax f.translateX f.scaleX ex ew vx vw ∧ Aligned ay f.translateY f.scaleY ey eh vy vh ∧
      (f.scaleX * vw = ew ∨ f.scaleY * vh = eh) ∧
      (second ≠ " slice".toList →
        ex ≤ f.translateX + f.scaleX * vx ∧ f.translateX + f.scaleX * (vx + vw) ≤ ex + ew ∧
        ey ≤ f.translateY + f.scaleY * vy ∧ f.translateY + f.scaleY * (vy + vh) ≤ ey + eh) ∧
      (second = " slice".toList →
        f.translateX + f.scaleX * vx ≤ ex ∧ ex + ew ≤ f.translateX + f.scaleX * (vx + vw) ∧
        f.translateY + f.scaleY * vy ≤ ey ∧ ey + eh ≤ f.translateY + f.scaleY * (vy + vh)) := by
  obtain ⟨f, hf, h1, h2, h3, h4⟩ := fit_align ax ay second hs ex ey ew eh vx vy vw vh hw.ne' hh.ne'
  refine ⟨f, hf, h1, h3, h4, ?_, ?_, ?_⟩
  · rw [← h1, h2]
    split
    · rcases max_choice (ew / vw) (eh / vh) with h | h
      · left; rw [h]; field_simp
      · right; rw [h]; field_simp
    · rcases min_choice (ew / vw) (eh / vh) with h | h
      · left; rw [h]; field_simp
      · right; rw [h]; field_simp
  · intro hne
    rw [if_neg hne] at h2
    have k1 : f.scaleX * vw ≤ ew := by rw [h2, ← le_div_iff₀ hw]; exact min_le_left _ _
    have k2 : f.scaleY * vh ≤ eh := by rw [← h1, h2, ← le_div_iff₀ hh]; exact min_le_right _ _
    have a1 := (aligned_inside h3).1 k1
    have a2 := (aligned_inside h4).1 k2
    exact ⟨a1.1, a1.2, a2.1, a2.2⟩
  · intro he
    rw [if_pos he] at h2
    have k1 : ew ≤ f.scaleX * vw := by rw [h2, ← div_le_iff₀ hw]; exact le_max_left _ _
    have k2 : eh ≤ f.scaleY * vh := by rw [← h1, h2, ← div_le_iff₀ hh]; exact le_max_right _ _
    have a1 := (aligned_inside h3).2 k1
    have a2 := (aligned_inside h4).2 k2
    exact ⟨a1.1, a1.2, a2.1, a2.2⟩

omit [IsStrictOrderedRing K] in
/-- **C33**, the default is `xMidYMid meet`. -/
theorem C33_default (ex ey ew eh vx vy vw vh : K) :
    fit ex ey ew eh vx vy vw vh none = fit ex ey ew eh vx vy vw vh (some "xMidYMid meet".toList) ∧
    fit ex ey ew eh vx vy vw vh none = fit ex ey ew eh vx vy vw vh (some "xMidYMid".toList) := by
  have h0 : aspectWords none = ("xMidyMid".toList, "meet".toList) := by decide
  have h1 : aspectWords (some "xMidYMid meet".toList) = ("xMidYMid".toList, "meet".toList) := by decide
  have h2 : aspectWords (some "xMidYMid".toList) = ("xMidYMid".toList, "meet".toList) := by decide
  have l : "xMidyMid".toList.flatMap Color.lowerChar = "xMidYMid".toList.flatMap Color.lowerChar := by decide
  have n1 : "xMidyMid".toList ≠ ['n', 'o', 'n', 'e'] := by decide
  have n2 : "xMidYMid".toList ≠ ['n', 'o', 'n', 'e'] := by decide
  constructor
  · simp only [fit, h0, h1, l, n1, n2, ne_eq, not_false_eq_true, true_and]
  · simp only [fit, h0, h2, l, n1, n2, ne_eq, not_false_eq_true, true_and]

end

/-- The words are taken apart at single spaces: with `defer` in front, as SVG 1.1 allows, or with two spaces, the scale is
not uniform although the alignment is not `none`. -/
theorem C33_words_wrong : ∀ a ∈ ["defer xMidYMid".toList, "xMidYMid  meet".toList],
    ∃ f : Fit ℚ, fit 0 0 10 20 0 0 1 1 (some a) = .ok f ∧ f.scaleX ≠ f.scaleY := by
  intro a ha
  refine ⟨if a = "defer xMidYMid".toList then ⟨0, 0, 10, 20⟩ else ⟨0, 0, 10, 20⟩, ?_⟩
  revert a
  decide +kernel

/-! ### C34 -/

/-- what a text printed by `Length.str` is read as -/
theorem num_close (x : ℚ) : |num (lengthStr x) - x| ≤ 1 / (2 * 10 ^ 12) := by
  have := lengthStr_close x
  have h2 : ((|floatVal (lengthStr x) - x| : ℚ) : ℝ) ≤ ((1 / (2 * 10 ^ 12) : ℚ) : ℝ) := by exact_mod_cast this
  push_cast at h2
  simpa [num] using h2

theorem lower_number {x : ℚ} : (lengthStr x).map Char.toLower = lengthStr x := by
  conv_rhs => rw [← List.map_id (lengthStr x)]
  apply List.map_congr_left
  intro c hc
  have h := lengthStr_plain x c hc
  rcases h with rfl | rfl | hd
  · decide
  · decide
  · show c.toLower = c
    unfold Char.toLower
    split
    · rename_i hh
      exfalso
      have h1 : c ≤ '9' := hd.2
      simp only [Char.le_def, UInt32.le_iff_toNat_le] at h1
      have h2 : 65 ≤ c.val.toNat := by
        have := hh.1
        simpa [UInt32.le_iff_toNat_le] using this
      have h3 : '9'.val.toNat = 57 := rfl
      omega
    · rfl

theorem call_text {name : List Char} (hn : name ∈ functionNames) (x y : ℚ) {fs : List (List Char × List Param)}
    {rest sep : List Char} (hsep : Separators sep) (hf : FunctionsText fs rest) :
    FunctionsText ((name, [(lengthStr x, []), (lengthStr y, [])]) :: fs) (sep ++ (call name x y ++ rest)) := by
  have stop : ∀ (x : ℚ) (c : Char) (r : List Char), ¬ NumChar c → Stops (lengthStr x) ([] ++ ([] ++ (c :: r))) := by
    intro x c r hc
    exact stops_of_head (by simpa using hc)
  have p : ParamsText [(lengthStr x, []), (lengthStr y, [])] (lengthStr x ++ (',' :: ' ' :: lengthStr y)) := by
    have e1 : ParamsText [(lengthStr y, [])] (',' :: ' ' :: lengthStr y) := by
      have := ParamsText.cons (sep := [',', ' ']) (n := lengthStr y) (ws := []) (u := []) (rest := []) (ps := [])
        (by simp [Separators]) (lengthStr_isNumber y) (by simp [Spaces]) (by decide)
        (stops_of_head (by simp)) (.nil (by simp [Separators]))
      simpa using this
    have := ParamsText.cons (sep := []) (n := lengthStr x) (ws := []) (u := []) (by simp [Separators])
      (lengthStr_isNumber x) (by simp [Spaces]) (by decide) (stop x ',' _ (by unfold NumChar IsDigit; decide)) e1
    simpa using this
  have := FunctionsText.cons (ws := []) hsep hn (by simp [Spaces]) p (by simp) hf
  simpa [call] using this

theorem call_lower {name : List Char} (hn : name.map Char.toLower = name) (x y : ℚ) :
    (call name x y).map Char.toLower = call name x y := by
  have h1 : Char.toLower '(' = '(' := by decide
  have h2 : Char.toLower ')' = ')' := by decide
  have h3 : Char.toLower ',' = ',' := by decide
  have h4 : Char.toLower ' ' = ' ' := by decide
  simp only [call, List.map_append, List.map_cons, List.map_nil, hn, lower_number, h1, h2, h3, h4]

theorem pixels_plain (n : List Char) : pixels (n, []) = some (num n) := by
  simp [pixels]

/-- the text of a transform is read as the transform with its numbers as printed -/
theorem text_read (f : Fit ℚ) :
    ∃ M : Mat ℝ, (∀ ctx, LMat.ofText ctx (text f) = .ok (LMat.ofMat M)) ∧ M.b = 0 ∧ M.c = 0 ∧
      |M.a - f.scaleX| ≤ 1 / (2 * 10 ^ 12) ∧ |M.d - f.scaleY| ≤ 1 / (2 * 10 ^ 12) ∧
      |M.e - f.translateX| ≤ 1 / (2 * 10 ^ 12) ∧ |M.f - f.translateY| ≤ 1 / (2 * 10 ^ 12) := by
  have small : (0 : ℝ) ≤ 1 / (2 * 10 ^ 12) := by positivity
  have hT : "translate".toList.map Char.toLower = "translate".toList := by decide
  have hS : "scale".toList.map Char.toLower = "scale".toList := by decide
  have sp : Char.toLower ' ' = ' ' := by decide
  have actT : ∀ x y : ℚ, Acts pixels pixels ("translate".toList, [(lengthStr x, []), (lengthStr y, [])])
      (fun p => ⟨p.x + num (lengthStr x), p.y + num (lengthStr y)⟩) :=
    fun x y => .translate (.xy (pixels_plain _) (pixels_plain _)) (by simp)
  have actS : ∀ x y : ℚ, Acts pixels pixels ("scale".toList, [(lengthStr x, []), (lengthStr y, [])])
      (scaleAbout (num (lengthStr x)) (num (lengthStr y)) 0 0) :=
    fun x y => .scaleXY .none (by simp)
  unfold text
  by_cases h1 : f.translateX = 0 ∧ f.translateY = 0
  · rw [if_pos h1]
    by_cases h2 : f.scaleX = 1 ∧ f.scaleY = 1
    · rw [if_pos h2]
      obtain ⟨M, hM, aM⟩ := C30_list [] [] [] (.nil (by simp [Separators])) .nil
      have : M = Mat.identity := mat_ext_points fun p => by rw [aM, identity_apply]; rfl
      subst this
      exact ⟨Mat.identity, hM, rfl, rfl, by simp [Mat.identity, h2.1, small], by simp [Mat.identity, h2.2, small],
        by simp [Mat.identity, h1.1, small], by simp [Mat.identity, h1.2, small]⟩
    · rw [if_neg h2]
      have ht := call_text (name := "scale".toList) (by decide) f.scaleX f.scaleY (sep := []) (rest := [])
        (by simp [Separators]) (.nil (by simp [Separators]))
      rw [List.nil_append, List.append_nil, ← call_lower hS] at ht
      obtain ⟨M, hM, aM⟩ := C30_list _ _ _ ht (.cons (actS _ _) .nil)
      have : M = ⟨num (lengthStr f.scaleX), 0, 0, num (lengthStr f.scaleY), 0, 0⟩ := mat_ext_points fun p => by
        rw [aM]; ext <;> simp [compose, scaleAbout, Mat.pointInMatrixSpace, mul_comm]
      subst this
      exact ⟨_, hM, rfl, rfl, num_close _, num_close _, by simp [h1.1, small], by simp [h1.2, small]⟩
  · rw [if_neg h1]
    by_cases h2 : f.scaleX = 1 ∧ f.scaleY = 1
    · rw [if_pos h2]
      have ht := call_text (name := "translate".toList) (by decide) f.translateX f.translateY (sep := []) (rest := [])
        (by simp [Separators]) (.nil (by simp [Separators]))
      rw [List.nil_append, List.append_nil, ← call_lower hT] at ht
      obtain ⟨M, hM, aM⟩ := C30_list _ _ _ ht (.cons (actT _ _) .nil)
      have : M = ⟨1, 0, 0, 1, num (lengthStr f.translateX), num (lengthStr f.translateY)⟩ :=
        mat_ext_points fun p => by rw [aM]; ext <;> simp [compose, Mat.pointInMatrixSpace]
      subst this
      exact ⟨_, hM, rfl, rfl, by simp [h2.1, small], by simp [h2.2, small], num_close _, num_close _⟩
    · rw [if_neg h2]
      have ht := call_text (name := "translate".toList) (by decide) f.translateX f.translateY (sep := [])
        (by simp [Separators]) (call_text (name := "scale".toList) (by decide) f.scaleX f.scaleY (sep := [' '])
          (rest := []) (by simp [Separators]) (.nil (by simp [Separators])))
      rw [List.nil_append, List.append_nil] at ht
      have hl : (call "translate".toList f.translateX f.translateY ++ ([' '] ++ call "scale".toList f.scaleX f.scaleY)).map
          Char.toLower =
          call "translate".toList f.translateX f.translateY ++ ([' '] ++ call "scale".toList f.scaleX f.scaleY) := by
        simp only [List.map_append, call_lower hT, call_lower hS, List.map_cons, List.map_nil, sp]
      rw [← hl] at ht
      obtain ⟨M, hM, aM⟩ := C30_list _ _ _ ht (.cons (actT _ _) (.cons (actS _ _) .nil))
      have : M = ⟨num (lengthStr f.scaleX), 0, 0, num (lengthStr f.scaleY), num (lengthStr f.translateX),
          num (lengthStr f.translateY)⟩ :=
        mat_ext_points fun p => by
          rw [aM]; ext <;> simp [compose, scaleAbout, Mat.pointInMatrixSpace, mul_comm]
      subst this
      exact ⟨_, hM, rfl, rfl, num_close _, num_close _, num_close _, num_close _⟩

theorem text_empty (f : Fit ℚ) : text f = [] ↔ f = ⟨0, 0, 1, 1⟩ := by
  obtain ⟨tx, ty, sx, sy⟩ := f
  have hc : ∀ n x y, call n x y ≠ [] := by intro n x y; simp [call]
  unfold text
  by_cases h1 : tx = 0 ∧ ty = 0
  · by_cases h2 : sx = 1 ∧ sy = 1
    · simp [h1, h2]
    · simp only [h1, and_self, if_true, if_neg h2, hc, false_iff, Fit.mk.injEq]
      tauto
  · by_cases h2 : sx = 1 ∧ sy = 1
    · simp only [if_neg h1, h2, and_self, if_true, hc, false_iff, Fit.mk.injEq]
      tauto
    · simp only [if_neg h1, if_neg h2, List.append_eq_nil_iff, hc, false_and, false_iff, Fit.mk.injEq]
      tauto

/-- all four numbers are there -/
def Known (b : Box ℚ) : Prop := b.x ≠ none ∧ b.y ≠ none ∧ b.width ≠ none ∧ b.height ≠ none

/-- **C34.** If a number of the element or of the viewBox is missing, the text is empty. Otherwise a viewBox without width
or height raises ZeroDivisionError; else the text, read by `Matrix`, is the matrix `translate(x, y) scale(x, y)` of the numbers
computed (C32, C33), each of its six entries to half a unit of the twelfth decimal, and the text is empty exactly when that
transform is the identity. -/
theorem C34_text (e vb : Box ℚ) (aspect : Option (List Char)) :
    (¬ (Known e ∧ Known vb) → transform e vb aspect = .ok []) ∧
    ∀ ex ey ew eh vx vy vw vh : ℚ, e = ⟨some ex, some ey, some ew, some eh⟩ → vb = ⟨some vx, some vy, some vw, some vh⟩ →
      ((vw = 0 ∨ vh = 0) → transform e vb aspect = .error .zeroDivisionError) ∧
      (vw ≠ 0 → vh ≠ 0 → ∃ (f : Fit ℚ) (t : List Char) (M : Mat ℝ),
        fit ex ey ew eh vx vy vw vh aspect = .ok f ∧ transform e vb aspect = .ok t ∧
        (∀ ctx, LMat.ofText ctx t = .ok (LMat.ofMat M)) ∧ M.b = 0 ∧ M.c = 0 ∧
        |M.a - f.scaleX| ≤ 1 / (2 * 10 ^ 12) ∧ |M.d - f.scaleY| ≤ 1 / (2 * 10 ^ 12) ∧
        |M.e - f.translateX| ≤ 1 / (2 * 10 ^ 12) ∧ |M.f - f.translateY| ≤ 1 / (2 * 10 ^ 12) ∧
        (t = [] ↔ f.translateX = 0 ∧ f.translateY = 0 ∧ f.scaleX = 1 ∧ f.scaleY = 1)) := by
  constructor
  · intro h
    obtain ⟨a, b, c, d⟩ := e
    obtain ⟨a', b', c', d'⟩ := vb
    unfold transform
    split
    · rename_i h1 h2 h3 h4 h5 h6 h7 h8
      exfalso; apply h
      simp only at h1 h2 h3 h4 h5 h6 h7 h8
      simp [Known, h1, h2, h3, h4, h5, h6, h7, h8]
    · rfl
  · rintro ex ey ew eh vx vy vw vh rfl rfl
    constructor
    · intro h
      simp only [transform, fit]
      by_cases hw : vw = 0
      · simp [hw, Except.map]
      · have hh : vh = 0 := by tauto
        simp [hw, hh, Except.map]
    · intro hw hh
      have : ∃ f, fit ex ey ew eh vx vy vw vh aspect = .ok f := by
        simp only [fit, hw, hh, if_false]; exact ⟨_, rfl⟩
      obtain ⟨f, hf⟩ := this
      obtain ⟨M, h1, h2, h3, h4, h5, h6, h7⟩ := text_read f
      refine ⟨f, text f, M, hf, by simp [transform, hf, Except.map], h1, h2, h3, h4, h5, h6, h7, ?_⟩
      rw [text_empty]
      obtain ⟨tx, ty, sx, sy⟩ := f
      simp

/-- a viewBox that is moved and scaled -/
example : transform ⟨some 10, some 20, some 100, some 50⟩ ⟨some 1, some 1, some 10, some 10⟩ none =
    .ok "translate(30, 15) scale(5, 5)".toList := by decide +kernel

/-! ### C75 -/

/-- **C75**, printing. A viewBox that is printed and read again has the same four numbers, each to half a unit of the
twelfth decimal. -/
theorem C75_round_trip (x y w h : ℚ) :
    ∃ x' y' w' h', Viewbox.ofText (some (Viewbox.toString ⟨some x, some y, some w, some h⟩)) =
        ⟨some x', some y', some w', some h'⟩ ∧
      |x' - x| ≤ 1 / (2 * 10 ^ 12) ∧ |y' - y| ≤ 1 / (2 * 10 ^ 12) ∧ |w' - w| ≤ 1 / (2 * 10 ^ 12) ∧
      |h' - h| ≤ 1 / (2 * 10 ^ 12) := by
  refine ⟨_, _, _, _, ?_, lengthStr_close x, lengthStr_close y, lengthStr_close w, lengthStr_close h⟩
  have step : ∀ (x : ℚ) (r : List Char), findAll matchFloat 0 (lengthStr x ++ (' ' :: r)) =
      lengthStr x :: findAll matchFloat 0 r := by
    intro x r
    have hne : lengthStr x ≠ [] := by
      obtain ⟨c, r, h, -⟩ := isNumber_head (lengthStr_isNumber x); rw [h]; simp
    rw [Transform.findAll_match hne (matchFloat_of_stops (lengthStr_isNumber x) (stops_of_head (by
      simp [NumChar, IsDigit])))]
    have := Transform.findAll_skip (f := matchFloat) (sep := [' ']) (rest := r) (by
      intro c hc r; simp at hc; subst hc; exact Transform.sep_not_num (by simp) r)
    rw [← this]; rfl
  have last : findAll matchFloat 0 (lengthStr h) = [lengthStr h] := by
    have hne : lengthStr h ≠ [] := by
      obtain ⟨c, r, h', -⟩ := isNumber_head (lengthStr_isNumber h); rw [h']; simp
    have := Transform.findAll_match (f := matchFloat) (rest := []) hne
      (matchFloat_of_stops (lengthStr_isNumber h) (stops_of_head (by simp)))
    rw [List.append_nil] at this
    rw [this]; rfl
  simp [Viewbox.ofText, setViewbox, Viewbox.toString, coord, step, last]

theorem numbers_found (ns : List (List Char × List Char)) (tail : List Char)
    (hn : ∀ p ∈ ns, Separators p.1 ∧ IsNumber p.2) (hsep : ∀ p ∈ ns.tail, p.1 ≠ [])
    (ht : ∀ p ∈ ns.getLast?, Stops p.2 tail) :
    findAll matchFloat 0 (ns.flatMap (fun p => p.1 ++ p.2) ++ tail) =
      ns.map (fun p => p.2) ++ findAll matchFloat 0 tail := by
  induction ns with
  | nil => rfl
  | cons p ns ih =>
    obtain ⟨hp1, hp2⟩ := hn p (by simp)
    rw [List.flatMap_cons, List.append_assoc, List.append_assoc,
      Transform.findAll_skip (fun c hc r => Transform.sep_not_num (hp1 c hc) r)]
    have hne : p.2 ≠ [] := by obtain ⟨c, r, h, -⟩ := isNumber_head hp2; rw [h]; simp
    have hst : Stops p.2 (ns.flatMap (fun p => p.1 ++ p.2) ++ tail) := by
      cases ns with
      | nil => exact ht p (by simp)
      | cons q ns =>
        apply stops_of_head
        intro c hc
        have hq := hsep q (by simp)
        cases hq1 : q.1 with
        | nil => exact absurd hq1 hq
        | cons d r =>
          simp [hq1] at hc
          subst hc
          have := (hn q (by simp)).1 d (by rw [hq1]; simp)
          unfold NumChar IsDigit
          rcases this with rfl | rfl | rfl | rfl | rfl <;> decide
    rw [Transform.findAll_match hne (matchFloat_of_stops hp2 hst), ih (fun q hq => hn q (by simp [hq]))
      (fun q hq => hsep q (by simpa using List.mem_of_mem_tail hq))
      (fun q hq => ht q (by cases ns with | nil => simp at hq | cons _ _ => simpa using hq))]
    rfl

/-- **C75**, reading. A text that begins with four numbers, with white space or commas between them and before them, is the
rectangle of these four numbers, whatever follows. -/
theorem C75_reads (s0 s1 s2 s3 x y w h tail : List Char) (h0 : Separators s0) (h1 : Separators s1) (h2 : Separators s2)
    (h3 : Separators s3) (n1 : s1 ≠ []) (n2 : s2 ≠ []) (n3 : s3 ≠ []) (hx : IsNumber x) (hy : IsNumber y)
    (hw : IsNumber w) (hh : IsNumber h) (ht : Stops h tail) :
    Viewbox.ofText (some (s0 ++ (x ++ (s1 ++ (y ++ (s2 ++ (w ++ (s3 ++ (h ++ tail))))))))) =
      ⟨some (floatVal x), some (floatVal y), some (floatVal w), some (floatVal h)⟩ := by
  have := numbers_found [(s0, x), (s1, y), (s2, w), (s3, h)] tail (by simp [h0, h1, h2, h3, hx, hy, hw, hh])
    (by simp [n1, n2, n3]) (by simpa using ht)
  simp only [List.flatMap_cons, List.flatMap_nil, List.append_nil, List.append_assoc] at this
  simp [Viewbox.ofText, setViewbox, this]

/-- a text with signs and exponents -/
example : Viewbox.ofText (some " 0,-1.5 1e2\t+30".toList) = ⟨some 0, some (-3 / 2), some 100, some 30⟩ := by
  decide +kernel

/-- Texts with fewer numbers leave the rest unknown, so that no transform is made from them (C34). -/
theorem C75_short (s0 s1 s2 x y w : List Char) (h0 : Separators s0) (h1 : Separators s1) (h2 : Separators s2)
    (n1 : s1 ≠ []) (n2 : s2 ≠ []) (hx : IsNumber x) (hy : IsNumber y) (hw : IsNumber w)
    (e : Box ℚ) (aspect : Option (List Char)) :
    ∀ t ∈ [s0, s0 ++ x, s0 ++ (x ++ (s1 ++ y)), s0 ++ (x ++ (s1 ++ (y ++ (s2 ++ w))))],
      (Viewbox.ofText (some t)).height = none ∧ transform e (Viewbox.ofText (some t)) aspect = .ok [] := by
  have last : ∀ {n : List Char}, Stops n [] := stops_of_head (by simp)
  have key : ∀ ns : List (List Char × List Char), ns.length ≤ 3 → (∀ p ∈ ns, Separators p.1 ∧ IsNumber p.2) →
      (∀ p ∈ ns.tail, p.1 ≠ []) →
      (Viewbox.ofText (some (ns.flatMap (fun p => p.1 ++ p.2)))).height = none := by
    intro ns hl hn hs
    have := numbers_found ns [] hn hs (fun _ _ => last)
    rw [List.append_nil] at this
    simp only [Viewbox.ofText, setViewbox, this, findAll, List.append_nil, List.map_map]
    match ns, hl with
    | [], _ => rfl
    | [_], _ => rfl
    | [_, _], _ => rfl
    | [_, _, _], _ => rfl
    | _ :: _ :: _ :: _ :: _, h => exact absurd h (by simp)
  intro t ht
  have hH : (Viewbox.ofText (some t)).height = none := by
    simp only [List.mem_cons, List.not_mem_nil, or_false] at ht
    rcases ht with rfl | rfl | rfl | rfl
    · simp [Viewbox.ofText, setViewbox,
        Transform.findAll_none (f := matchFloat) (fun c hc r => Transform.sep_not_num (h0 c hc) r)]
    · simpa using key [(s0, x)] (by simp) (by simp [h0, hx]) (by simp)
    · simpa using key [(s0, x), (s1, y)] (by simp) (by simp [h0, hx, h1, hy]) (by simp [n1])
    · simpa using key [(s0, x), (s1, y), (s2, w)] (by simp) (by simp [h0, hx, h1, hy, h2, hw]) (by simp [n1, n2])
  exact ⟨hH, (C34_text e _ aspect).1 (fun hk => hk.2.2.2.2 hH)⟩

end Svgio.Props
