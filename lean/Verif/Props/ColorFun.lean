import Verif.Spec.ColorFun
import Verif.Lemmas.Color
import Verif.Lemmas.Number
import Verif.Props.ColorKeywords
import Verif.Props.NumberValue
import Verif.Model.ColorParse
import Mathlib.Data.List.TakeWhile

/-!
C124: colours written with `rgb()`, `rgba()`, `hsl()` and `hsla()`.
-/

namespace Svgio.Props

open Spec Color

theorem isWs_iff (c : Char) : isWs c = true ↔ c ∈ spaces := by
  constructor
  · intro h
    have hc : c = Char.ofNat c.toNat := (Char.ofNat_toNat c).symm
    unfold isWs at h
    simp only [Bool.or_eq_true, decide_eq_true_eq] at h
    generalize c.toNat = n at *
    subst hc
    unfold spaces
    refine List.mem_map_of_mem ?_
    simp only [List.mem_cons, List.not_mem_nil, or_false]
    omega
  · intro h
    have : ∀ c ∈ spaces, isWs c = true := by decide +kernel
    exact this c h

theorem white_iff (w : List Char) : White w ↔ ∀ c ∈ w, isWs c = true := by
  unfold White
  simp only [isWs_iff]

/-- a text that does not begin with white space -/
def Dark (r : List Char) : Prop := ∀ c ∈ r.head?, isWs c = false

theorem skipWs_dark {r : List Char} (h : Dark r) : skipWs r = r := by
  cases r with
  | nil => rfl
  | cons c r => exact List.dropWhile_cons_of_neg (by simp [h c rfl])

theorem skipWs_white {w r : List Char} (hw : White w) (h : Dark r) : skipWs (w ++ r) = r := by
  rw [white_iff] at hw
  induction w with
  | nil => exact skipWs_dark h
  | cons c w ih =>
    have : skipWs (c :: w ++ r) = skipWs (w ++ r) := List.dropWhile_cons_of_pos (hw c (by simp))
    rw [this]
    exact ih fun d hd => hw d (by simp [hd])

theorem skipWs_split (s : List Char) : ∃ w, White w ∧ s = w ++ skipWs s := by
  refine ⟨s.takeWhile isWs, ?_, (List.takeWhile_append_dropWhile).symm⟩
  rw [white_iff]
  intro c hc
  exact List.mem_takeWhile_imp hc

theorem lit_iff (c : Char) (s r : List Char) : lit c s = some r ↔ s = c :: r := by
  cases s with
  | nil => simp [lit]
  | cons d s =>
    by_cases h : d = c
    · simp [lit, h]
    · simp [lit, h]

theorem litWord_iff (w s r : List Char) : litWord w s = some r ↔ s = w ++ r := by
  induction w generalizing s with
  | nil => simp [litWord]
  | cons c w ih =>
    simp only [litWord, Option.bind_eq_some_iff]
    constructor
    · rintro ⟨t, h1, h2⟩
      rw [lit_iff] at h1
      rw [ih] at h2
      rw [h1, h2]
      rfl
    · intro h
      exact ⟨w ++ r, (lit_iff _ _ _).2 h, (ih _).2 rfl⟩

theorem num_some {p : Bool} {s v r : List Char} (h : num p s = some (v, r)) : IsNumber v ∧ s = v ++ (percent p ++ r) := by
  unfold num at h
  cases hm : matchFloat s with
  | none => rw [hm] at h; simp at h
  | some x =>
    obtain ⟨t, q⟩ := x
    obtain ⟨rfl, hn⟩ := matchFloat_sound hm
    rw [hm] at h
    cases p with
    | false =>
      simp only [Bool.false_eq_true, if_false, Option.some.injEq, Prod.mk.injEq] at h
      obtain ⟨rfl, rfl⟩ := h
      exact ⟨hn, rfl⟩
    | true =>
      simp only [if_true, Option.map_eq_some_iff, Prod.mk.injEq] at h
      obtain ⟨r', h1, rfl, rfl⟩ := h
      rw [lit_iff] at h1
      subst h1
      exact ⟨hn, rfl⟩

/-- a text that does not continue a number -/
def NoNum (r : List Char) : Prop := ∀ c ∈ r.head?, ¬ NumChar c

theorem num_read {p : Bool} {v r : List Char} (hn : IsNumber v) (h : NoNum r) : num p (v ++ (percent p ++ r)) = some (v, r) := by
  unfold num
  cases p with
  | false =>
    have : matchFloat (v ++ r) = some (v, r) := matchFloat_of_stops hn (stops_of_head h)
    change (match matchFloat (v ++ r) with | none => none | some (v, r) => _) = _
    rw [this]
    rfl
  | true =>
    have : matchFloat (v ++ ('%' :: r)) = some (v, '%' :: r) := matchFloat_of_stops hn (stops_of_head (by
      intro c hc
      cases hc
      unfold NumChar IsDigit
      decide))
    change (match matchFloat (v ++ ('%' :: r)) with | none => none | some (v, r) => _) = _
    rw [this]
    rfl

theorem comma_some {s r : List Char} (h : comma s = some r) : ∃ w w', White w ∧ White w' ∧ s = w ++ ',' :: (w' ++ r) := by
  unfold comma at h
  rw [Option.map_eq_some_iff] at h
  obtain ⟨t, h1, rfl⟩ := h
  rw [lit_iff] at h1
  obtain ⟨w, hw, e⟩ := skipWs_split s
  obtain ⟨w', hw', e'⟩ := skipWs_split t
  refine ⟨w, w', hw, hw', ?_⟩
  rw [← e', ← h1]
  exact e

theorem comma_read {w w' r : List Char} (hw : White w) (hw' : White w') (h : Dark r) : comma (w ++ ',' :: (w' ++ r)) = some r := by
  have h1 : skipWs (w ++ ',' :: (w' ++ r)) = ',' :: (w' ++ r) := skipWs_white hw (by intro c hc; cases hc; decide)
  unfold comma
  rw [h1, (lit_iff ',' _ _).2 rfl, Option.map_some, skipWs_white hw' h]

theorem number_dark {v r : List Char} (h : IsNumber v) : Dark (v ++ r) := by
  obtain ⟨c, q, rfl, hc⟩ := isNumber_head h
  intro d hd
  cases hd
  rcases hc with rfl | rfl | rfl | hc
  · decide
  · decide
  · decide
  · have : ∀ c ∈ spaces, ¬ IsDigit c := by unfold IsDigit; decide +kernel
    by_contra h2
    rw [Bool.not_eq_false, isWs_iff] at h2
    exact this c h2 hc

theorem noNum_white {w r : List Char} (hw : White w) (h : NoNum r) : NoNum (w ++ r) := by
  cases w with
  | nil => exact h
  | cons c w =>
    intro d hd
    cases hd
    have : ∀ c ∈ spaces, ¬ NumChar c := by unfold NumChar IsDigit; decide +kernel
    exact this c (hw c (by simp))

theorem noNum_cons {c : Char} (r : List Char) (h : ¬ NumChar c) : NoNum (c :: r) := by
  intro d hd
  cases hd
  exact h

theorem comma_noNum : ¬ NumChar ',' := by unfold NumChar IsDigit; decide
theorem paren_noNum : ¬ NumChar ')' := by unfold NumChar IsDigit; decide
theorem percent_noNum : ¬ NumChar '%' := by unfold NumChar IsDigit; decide

theorem funEnd_head {v4 : Option (List Char)} {e : List Char} (h : FunEnd v4 e) : (∃ r, e = ',' :: r) ∨ ∃ r, e = ')' :: r := by
  cases v4 with
  | none => obtain ⟨r, rfl⟩ := h; exact .inr ⟨_, rfl⟩
  | some v => obtain ⟨-, w, w', r, -, -, rfl⟩ := h; exact .inl ⟨_, rfl⟩

/-- the optional `a` -/
def skipA : List Char → List Char
  | 'a' :: r => r
  | r => r

/-- the part after the third number -/
def funEnd (v1 v2 v3 s : List Char) : Option (List Char × List Char × List Char × Option (List Char)) :=
  match s with
  | ',' :: r => do
    let (v4, s) ← num false (skipWs r)
    let _ ← lit ')' (skipWs s)
    return (v1, v2, v3, some v4)
  | s => do
    let _ ← lit ')' s
    return (v1, v2, v3, none)

theorem matchFun_eq (name : List Char) (p1 p2 p3 : Bool) (s : List Char) : matchFun name p1 p2 p3 s =
    (litWord name s).bind fun s => (lit '(' (skipA s)).bind fun s => (num p1 (skipWs s)).bind fun x =>
      (comma x.2).bind fun s => (num p2 s).bind fun y => (comma y.2).bind fun s => (num p3 s).bind fun z =>
        funEnd x.1 y.1 z.1 (skipWs z.2) := rfl

theorem skipA_split (s : List Char) : ∃ a, (a = [] ∨ a = ['a']) ∧ s = a ++ skipA s := by
  by_cases h : ∃ r, s = 'a' :: r
  · obtain ⟨r, rfl⟩ := h
    exact ⟨['a'], .inr rfl, rfl⟩
  · refine ⟨[], .inl rfl, ?_⟩
    unfold skipA
    split
    · exact absurd ⟨_, rfl⟩ h
    · rfl

theorem funEnd_some {v1 v2 v3 s : List Char} {g : List Char × List Char × List Char × Option (List Char)}
    (h : funEnd v1 v2 v3 s = some g) : g.1 = v1 ∧ g.2.1 = v2 ∧ g.2.2.1 = v3 ∧ FunEnd g.2.2.2 s := by
  unfold funEnd at h
  split at h
  · rename_i r
    change (num false (skipWs r)).bind (fun x => (lit ')' (skipWs x.2)).bind fun _ => some (v1, v2, v3, some x.1)) = some g at h
    simp only [Option.bind_eq_some_iff] at h
    obtain ⟨x, hx, t, ht, e⟩ := h
    cases e
    obtain ⟨hn, hs⟩ := num_some (v := x.1) (r := x.2) hx
    rw [lit_iff] at ht
    obtain ⟨w, hw, ew⟩ := skipWs_split r
    obtain ⟨w', hw', ew'⟩ := skipWs_split x.2
    refine ⟨rfl, rfl, rfl, hn, w, w', t, hw, hw', ?_⟩
    rw [← ht, ← ew']
    rw [hs] at ew
    rw [ew]
    rfl
  · change (lit ')' s).bind (fun _ => some (v1, v2, v3, none)) = some g at h
    simp only [Option.bind_eq_some_iff] at h
    obtain ⟨t, ht, e⟩ := h
    cases e
    rw [lit_iff] at ht
    exact ⟨rfl, rfl, rfl, t, ht⟩

theorem funEnd_read {v1 v2 v3 s : List Char} {v4 : Option (List Char)} (h : FunEnd v4 s) : funEnd v1 v2 v3 s = some (v1, v2, v3, v4) := by
  cases v4 with
  | none =>
    obtain ⟨r, rfl⟩ := h
    change (lit ')' (')' :: r)).bind (fun _ => some (v1, v2, v3, none)) = _
    rw [(lit_iff ')' _ _).2 rfl]
    rfl
  | some v =>
    obtain ⟨hn, w, w', r, hw, hw', rfl⟩ := h
    change (num false (skipWs (w ++ (v ++ (w' ++ ')' :: r))))).bind (fun x => (lit ')' (skipWs x.2)).bind fun _ =>
      some (v1, v2, v3, some x.1)) = _
    rw [skipWs_white hw (number_dark hn)]
    have := num_read (p := false) hn (noNum_white hw' (noNum_cons r paren_noNum))
    change num false (v ++ (w' ++ ')' :: r)) = _ at this
    rw [this]
    simp only [Option.bind_some]
    rw [skipWs_white hw' (by intro c hc; cases hc; decide), (lit_iff ')' _ _).2 rfl]
    rfl

/-- the texts that the regular expressions match -/
theorem matchFun_iff (name : List Char) (p1 p2 p3 : Bool) (s v1 v2 v3 : List Char) (v4 : Option (List Char)) :
    matchFun name p1 p2 p3 s = some (v1, v2, v3, v4) ↔ FunText name p1 p2 p3 v1 v2 v3 v4 s := by
  rw [matchFun_eq]
  constructor
  · intro h
    simp only [Option.bind_eq_some_iff] at h
    obtain ⟨s1, h1, s2, h2, x, hx, s3, h3, y, hy, s4, h4, z, hz, h5⟩ := h
    rw [litWord_iff] at h1
    rw [lit_iff] at h2
    obtain ⟨a, ha, ea⟩ := skipA_split s1
    obtain ⟨w1, hw1, e1⟩ := skipWs_split s2
    obtain ⟨n1, f1⟩ := num_some (v := x.1) (r := x.2) hx
    obtain ⟨w2, w3, hw2, hw3, e2⟩ := comma_some h3
    obtain ⟨n2, f2⟩ := num_some (v := y.1) (r := y.2) hy
    obtain ⟨w4, w5, hw4, hw5, e3⟩ := comma_some h4
    obtain ⟨n3, f3⟩ := num_some (v := z.1) (r := z.2) hz
    obtain ⟨w6, hw6, e4⟩ := skipWs_split z.2
    obtain ⟨g1, g2, g3, g4⟩ := funEnd_some h5
    simp only at g1 g2 g3 g4
    rw [g1, g2, g3]
    refine ⟨n1, n2, n3, a, w1, w2, w3, w4, w5, w6, _, ha, hw1, hw2, hw3, hw4, hw5, hw6, g4, ?_⟩
    rw [← e4, ← f3, ← e3, ← f2, ← e2, ← f1, ← e1, ← h2, ← ea, ← h1]
  · rintro ⟨n1, n2, n3, a, w1, w2, w3, w4, w5, w6, e, ha, hw1, hw2, hw3, hw4, hw5, hw6, he, rfl⟩
    rw [(litWord_iff _ _ _).2 rfl, Option.bind_some]
    have hA : ∀ q, skipA (a ++ '(' :: q) = '(' :: q := by
      intro q
      rcases ha with rfl | rfl
      · rfl
      · rfl
    have he0 : Dark e ∧ NoNum e := by
      rcases funEnd_head he with ⟨r, rfl⟩ | ⟨r, rfl⟩
      · exact ⟨by intro c hc; cases hc; decide, noNum_cons _ comma_noNum⟩
      · exact ⟨by intro c hc; cases hc; decide, noNum_cons _ paren_noNum⟩
    rw [hA, (lit_iff '(' _ _).2 rfl, Option.bind_some, skipWs_white hw1 (number_dark n1),
      num_read n1 (noNum_white hw2 (noNum_cons _ comma_noNum)), Option.bind_some, comma_read hw2 hw3 (number_dark n2), Option.bind_some,
      num_read n2 (noNum_white hw4 (noNum_cons _ comma_noNum)), Option.bind_some, comma_read hw4 hw5 (number_dark n3), Option.bind_some,
      num_read n3 (noNum_white hw6 he0.2), Option.bind_some, skipWs_white hw6 he0.1]
    exact funEnd_read he


/-! ### Which of the patterns matches -/

theorem paren_not_hex {s : List Char} (h : '(' ∈ s) : matchHex s = false := by
  by_contra hm
  rw [Bool.not_eq_false] at hm
  rcases matchHex_chars hm '(' h with h | h | h
  · exact absurd h (by decide)
  · exact absurd h (by decide)
  · exact absurd h (by decide)

theorem paren_not_none {s : List Char} (h : '(' ∈ s) : s ≠ "none".toList := by
  rintro rfl
  exact absurd h (by decide)

theorem funText_paren {name : List Char} {p1 p2 p3 : Bool} {v1 v2 v3 s : List Char} {v4 : Option (List Char)}
    (h : FunText name p1 p2 p3 v1 v2 v3 v4 s) : '(' ∈ s := by
  obtain ⟨-, -, -, a, w1, w2, w3, w4, w5, w6, e, -, -, -, -, -, -, -, -, rfl⟩ := h
  simp

theorem percent_no_match {name : List Char} {p2 p3 q2 q3 : Bool} {v1 v2 v3 s : List Char} {v4 : Option (List Char)}
    (h : FunText name true p2 p3 v1 v2 v3 v4 s) : matchFun name false q2 q3 s = none := by
  obtain ⟨n1, -, -, a, w1, w2, w3, w4, w5, w6, e, ha, hw1, -, -, -, -, -, -, rfl⟩ := h
  rw [matchFun_eq, (litWord_iff _ _ _).2 rfl, Option.bind_some]
  have hA : ∀ q, skipA (a ++ '(' :: q) = '(' :: q := by
    intro q
    rcases ha with rfl | rfl
    · rfl
    · rfl
  rw [hA, (lit_iff '(' _ _).2 rfl, Option.bind_some, skipWs_white hw1 (number_dark n1)]
  generalize w2 ++ _ = q
  have := num_read (p := false) (r := '%' :: q) n1 (noNum_cons _ percent_noNum)
  change num false (v1 ++ ('%' :: q)) = _ at this
  change (num false (v1 ++ ('%' :: q))).bind _ = none
  rw [this, Option.bind_some]
  have : comma ('%' :: q) = none := by
    unfold comma
    rw [skipWs_dark (by intro c hc; cases hc; decide)]
    rfl
  rw [this]
  rfl

theorem hsl_no_rgb {p1 p2 p3 q1 q2 q3 : Bool} {v1 v2 v3 s : List Char} {v4 : Option (List Char)}
    (h : FunText "hsl".toList p1 p2 p3 v1 v2 v3 v4 s) : matchFun "rgb".toList q1 q2 q3 s = none := by
  obtain ⟨-, -, -, a, w1, w2, w3, w4, w5, w6, e, -, -, -, -, -, -, -, -, rfl⟩ := h
  rfl

theorem parse_rgb (F : FloatRounding) (pyInt : List Char → Option ℤ) {v1 v2 v3 s : List Char} {v4 : Option (List Char)}
    (h : FunText "rgb".toList false false false v1 v2 v3 v4 s) :
    parse F pyInt (some s) = (parseRgb F (v1, v2, v3, v4)).map some := by
  have hp := funText_paren h
  unfold parse
  simp only
  rw [if_neg (paren_not_none hp), paren_not_hex hp, (matchFun_iff _ _ _ _ _ _ _ _ _).2 h]
  rfl

theorem parse_rgbp (F : FloatRounding) (pyInt : List Char → Option ℤ) {v1 v2 v3 s : List Char} {v4 : Option (List Char)}
    (h : FunText "rgb".toList true true true v1 v2 v3 v4 s) :
    parse F pyInt (some s) = .ok (some (parseRgbp F (v1, v2, v3, v4))) := by
  have hp := funText_paren h
  unfold parse
  simp only
  rw [if_neg (paren_not_none hp), paren_not_hex hp, percent_no_match h, (matchFun_iff _ _ _ _ _ _ _ _ _).2 h]
  rfl

theorem parse_hsl (F : FloatRounding) (pyInt : List Char → Option ℤ) {v1 v2 v3 s : List Char} {v4 : Option (List Char)}
    (h : FunText "hsl".toList false true true v1 v2 v3 v4 s) :
    parse F pyInt (some s) = .ok (some (parseHsl F (v1, v2, v3, v4))) := by
  have hp := funText_paren h
  unfold parse
  simp only
  rw [if_neg (paren_not_none hp), paren_not_hex hp, hsl_no_rgb h, hsl_no_rgb h, (matchFun_iff _ _ _ _ _ _ _ _ _).2 h]
  rfl

/-! ### Channels -/

theorem rounded_clamp {n : ℤ} {x : ℚ} (h : Rounded n x) : Rounded (clampI n) (limit 0 255 x) := by
  unfold Rounded clampI limit at *
  rw [abs_le] at *
  have hM : ((max 0 (min 255 n) : ℤ) : ℚ) = max 0 (min 255 (n : ℚ)) := by push_cast; rfl
  rw [hM]
  obtain ⟨h1, h2⟩ := h
  generalize (n : ℚ) = m at *
  have e : (0 : ℚ) < 1 / 2 ^ 40 := by norm_num
  generalize (1 : ℚ) / 2 ^ 40 = ε at *
  constructor
  · rcases max_cases (0 : ℚ) (min 255 m) with ⟨a, a'⟩ | ⟨a, a'⟩ <;> rcases max_cases (0 : ℚ) (min 255 x) with ⟨b, b'⟩ | ⟨b, b'⟩ <;>
    rcases min_cases (255 : ℚ) m with ⟨c, c'⟩ | ⟨c, c'⟩ <;> rcases min_cases (255 : ℚ) x with ⟨d, d'⟩ | ⟨d, d'⟩ <;>
    rw [a, b] <;> linarith
  · rcases max_cases (0 : ℚ) (min 255 m) with ⟨a, a'⟩ | ⟨a, a'⟩ <;> rcases max_cases (0 : ℚ) (min 255 x) with ⟨b, b'⟩ | ⟨b, b'⟩ <;>
    rcases min_cases (255 : ℚ) m with ⟨c, c'⟩ | ⟨c, c'⟩ <;> rcases min_cases (255 : ℚ) x with ⟨d, d'⟩ | ⟨d, d'⟩ <;>
    rw [a, b] <;> linarith

theorem opacity_limit (o : ℚ) : (if (if o > 1 then 1 else o) < 0 then 0 else (if o > 1 then 1 else o)) = limit 0 1 o := by
  unfold limit
  by_cases h : o > 1
  · rw [if_pos h, min_eq_left h.le, if_neg (by norm_num), max_eq_right (by norm_num)]
  · rw [if_neg h, min_eq_right (not_lt.1 h)]
    by_cases h0 : o < 0
    · rw [if_pos h0, max_eq_left h0.le]
    · rw [if_neg h0, max_eq_right (not_lt.1 h0)]

theorem limit_mem {lo hi : ℚ} (h : lo ≤ hi) (x : ℚ) : lo ≤ limit lo hi x ∧ limit lo hi x ≤ hi :=
  ⟨le_max_left _ _, max_le h (min_le_left _ _)⟩

theorem limit_of_mem {lo hi x : ℚ} (h : lo ≤ x) (h' : x ≤ hi) : limit lo hi x = x := by
  unfold limit
  rw [min_eq_right h', max_eq_right h]

theorem rounded_fl (F : FloatRounding) {x M : ℚ} (h : |x| ≤ M) (hM : M ≤ 2 ^ 12) : Rounded (pyRound (F.fl x)) x := by
  have h1 := pyRound_err (F.fl x)
  have h2 := F.err x
  have h3 := tiny
  unfold Rounded
  have h4 : |x| / 2 ^ 53 ≤ 1 / 2 ^ 41 := by
    rw [div_le_iff₀ (by norm_num)]
    calc |x| ≤ 2 ^ 12 := h.trans hM
      _ = 1 / 2 ^ 41 * 2 ^ 53 := by norm_num
  have h5 : |(pyRound (F.fl x) : ℚ) - x| ≤ |(pyRound (F.fl x) : ℚ) - F.fl x| + |F.fl x - x| := by
    have := abs_add_le ((pyRound (F.fl x) : ℚ) - F.fl x) (F.fl x - x)
    rwa [sub_add_sub_cancel] at this
  have h6 : (1 : ℚ) / 2 ^ 41 + 1 / 2 ^ 60 ≤ 1 / 2 ^ 40 := by norm_num
  linarith

/-- the alpha of a colour of opacity `o` -/
theorem alpha_rounded (F : FloatRounding) (o : ℚ) : Rounded (clampI (pyRound (F.fl (limit 0 1 o * 255)))) (limit 0 1 o * 255) := by
  obtain ⟨h0, h1⟩ := limit_mem (zero_le_one (α := ℚ)) o
  have := rounded_clamp (rounded_fl F (x := limit 0 1 o * 255) (M := 255) (by rw [abs_of_nonneg (by linarith)]; linarith) (by norm_num))
  rwa [limit_of_mem (x := limit 0 1 o * 255) (by linarith) (by linarith)] at this

/-- the channels of `rgb_to_int` -/
theorem rgbToInt_get (F : FloatRounding) (r g b o : ℚ) :
    Color.red (some (rgbToInt F r g b o)) = some (clamp255 r) ∧ Color.green (some (rgbToInt F r g b o)) = some (clamp255 g) ∧
    Color.blue (some (rgbToInt F r g b o)) = some (clamp255 b) ∧
    ∃ a, Color.alpha (some (rgbToInt F r g b o)) = some a ∧ Rounded a (limit 0 1 o * 255) := by
  obtain ⟨a, ha0, ha1, ha, hv⟩ := rgbToInt_val F r g b o
  obtain ⟨k3, k2, k1, k0⟩ := pack_get (clamp255_range r) (clamp255_range g) (clamp255_range b) ⟨ha0, ha1⟩
  rw [← hv] at k3 k2 k1 k0
  have hr := get_eq_byte .red (rgbToInt F r g b o)
  have hg := get_eq_byte .green (rgbToInt F r g b o)
  have hb := get_eq_byte .blue (rgbToInt F r g b o)
  have hl := get_eq_byte .alpha (rgbToInt F r g b o)
  simp only [Chan.get, Chan.pos] at hr hg hb hl
  rw [k3] at hr
  rw [k2] at hg
  rw [k1] at hb
  rw [k0] at hl
  refine ⟨hr, hg, hb, a, hl, ?_⟩
  rw [opacity_limit] at ha
  rw [ha]
  exact alpha_rounded F o

/-- the opacity written, 1 if there is none -/
def Opacity (v : Option (List Char)) (o : ℚ) : Prop :=
  match v with
  | none => o = 1
  | some t => Value t o

theorem opac_eq {v : Option (List Char)} {o : ℚ} (h : Opacity v o) : opac v = o := by
  cases v with
  | none => exact Eq.symm h
  | some t => exact value_floatVal h

theorem digit_isDig {c : Char} : isDig c = true ↔ IsDigit c := by
  unfold isDig IsDigit
  simp

theorem whole_sign {sg ds : List Char} (hs : OptSign sg) (hd : Digits ds) : takeSign (sg ++ ds) = (sg, ds) := by
  refine takeSign_append hs ?_
  intro c hc
  cases ds with
  | nil => cases hc
  | cons d ds =>
    cases hc
    have := digit_not_sign (hd c (by simp))
    exact ⟨this.1, this.2.1⟩

theorem int_whole {t : List Char} {x : ℚ} (h : IsWhole t) (hx : Value t x) : ∃ n : ℤ, intOfFloatText t = .ok n ∧ (n : ℚ) = x := by
  obtain ⟨sg, ds, rfl, hs, hd, hne⟩ := h
  have ht := whole_sign hs hd
  refine ⟨intVal (sg ++ ds), ?_, ?_⟩
  · unfold intOfFloatText
    rw [ht]
    simp only
    rw [if_pos ⟨hne, by rw [List.all_eq_true]; exact fun c hc => digit_isDig.2 (hd c hc)⟩]
  · have hv : Value (sg ++ ds) ((if sg = ['-'] then -1 else 1) * (whole ds + 0) * (10 : ℚ) ^ (0 : ℤ)) :=
      ⟨sg, ds, [], [], 0, 0, by simp, hs, hd, .inl hne, .inl ⟨rfl, rfl⟩, .inl ⟨rfl, rfl⟩, rfl⟩
    rw [← value_floatVal hx, value_floatVal hv]
    unfold intVal
    rw [ht]
    simp only [natVal_whole hd]
    by_cases hg : sg = ['-']
    · rw [if_pos hg, if_pos hg]; simp
    · rw [if_neg hg, if_neg hg]; simp

theorem takeSign_shape (t : List Char) : OptSign (takeSign t).1 ∧ t = (takeSign t).1 ++ (takeSign t).2 := by
  unfold takeSign OptSign
  split
  · exact ⟨.inr (.inr rfl), rfl⟩
  · exact ⟨.inr (.inl rfl), rfl⟩
  · exact ⟨.inl rfl, rfl⟩

theorem int_only {t : List Char} {n : ℤ} (h : intOfFloatText t = .ok n) : IsWhole t := by
  unfold intOfFloatText at h
  split at h
  · rename_i hc
    obtain ⟨h1, h2⟩ := takeSign_shape t
    refine ⟨_, _, h2, h1, ?_, hc.1⟩
    intro c hm
    exact digit_isDig.1 (List.all_eq_true.1 hc.2 c hm)
  · cases h

theorem int_error {t : List Char} (h : ¬ IsWhole t) : intOfFloatText t = .error .valueError := by
  cases hi : intOfFloatText t with
  | ok n => exact absurd (int_only hi) h
  | error e =>
    unfold intOfFloatText at hi
    split at hi
    · cases hi
    · exact hi.symm

theorem parseRgb_ok (F : FloatRounding) {g : List Char × List Char × List Char × Option (List Char)} {a b c : ℤ}
    (h1 : intOfFloatText g.1 = .ok a) (h2 : intOfFloatText g.2.1 = .ok b) (h3 : intOfFloatText g.2.2.1 = .ok c) :
    parseRgb F g = .ok (rgbToInt F a b c (opac g.2.2.2)) := by
  unfold parseRgb
  rw [h1, h2, h3]
  rfl

theorem parseRgb_error (F : FloatRounding) {g : List Char × List Char × List Char × Option (List Char)}
    (h : ¬ (IsWhole g.1 ∧ IsWhole g.2.1 ∧ IsWhole g.2.2.1)) : parseRgb F g = .error .valueError := by
  unfold parseRgb
  cases h1 : intOfFloatText g.1 with
  | error e =>
    have : ¬ IsWhole g.1 := fun hw => by
      obtain ⟨x, hx⟩ := number_value (t := g.1) (by
        obtain ⟨sg, ds, e', hs, hd, hne⟩ := hw
        exact ⟨sg, ds, [], by simp [e'], hs, ⟨ds, [], by simp, hd, .inl ⟨rfl, hne⟩⟩, .inl rfl⟩)
      obtain ⟨n, hn, -⟩ := int_whole hw hx
      rw [hn] at h1
      cases h1
    rw [int_error this] at h1
    cases h1
    rfl
  | ok a =>
    cases h2 : intOfFloatText g.2.1 with
    | error e =>
      unfold intOfFloatText at h2
      split at h2
      · cases h2
      · cases h2; rfl
    | ok b =>
      cases h3 : intOfFloatText g.2.2.1 with
      | error e =>
        unfold intOfFloatText at h3
        split at h3
        · cases h3
        · cases h3; rfl
      | ok c => exact absurd ⟨int_only h1, int_only h2, int_only h3⟩ h

/-- **C124** `rgb(r, g, b)` and `rgb(r, g, b, o)` with whole numbers: the channels are these numbers, limited to 0..255, and alpha is 255 times
the opacity, limited and rounded. `rgba` is the same, and white space does not matter. -/
theorem C124_rgb (F : FloatRounding) (pyInt : List Char → Option ℤ) {s v1 v2 v3 : List Char} {v4 : Option (List Char)} {x1 x2 x3 o : ℚ}
    (h : FunText "rgb".toList false false false v1 v2 v3 v4 s) (w1 : IsWhole v1) (w2 : IsWhole v2) (w3 : IsWhole v3)
    (h1 : Value v1 x1) (h2 : Value v2 x2) (h3 : Value v3 x3) (h4 : Opacity v4 o) :
    ∃ c r g b a, parse F pyInt (some s) = .ok (some c) ∧ Color.red (some c) = some r ∧ Color.green (some c) = some g ∧
      Color.blue (some c) = some b ∧ Color.alpha (some c) = some a ∧
      (r : ℚ) = limit 0 255 x1 ∧ (g : ℚ) = limit 0 255 x2 ∧ (b : ℚ) = limit 0 255 x3 ∧ Rounded a (limit 0 1 o * 255) := by
  obtain ⟨n1, i1, rfl⟩ := int_whole w1 h1
  obtain ⟨n2, i2, rfl⟩ := int_whole w2 h2
  obtain ⟨n3, i3, rfl⟩ := int_whole w3 h3
  obtain ⟨k1, k2, k3, a, k4, k5⟩ := rgbToInt_get F n1 n2 n3 o
  refine ⟨_, _, _, _, a, ?_, k1, k2, k3, k4, ?_, ?_, ?_, k5⟩
  · rw [parse_rgb F pyInt h, parseRgb_ok F i1 i2 i3, opac_eq h4]
    rfl
  all_goals
    rw [clamp255_int]
    unfold clampI limit
    push_cast
    rfl

theorem percent_rounded (F : FloatRounding) (x : ℚ) :
    Rounded (clampI (pyRound (F.fl (x * F.fl (255 / 100))))) (limit 0 255 (x / 100 * 255)) := by
  have key : ∀ x : ℚ, |x| ≤ 1000 → Rounded (pyRound (F.fl (x * F.fl (255 / 100)))) (x / 100 * 255) := by
    intro x hx
    have e1 := F.err (255 / 100)
    have e2 := F.err (x * F.fl (255 / 100))
    have e3 := pyRound_err (F.fl (x * F.fl (255 / 100)))
    have t := tiny
    have hr : |F.fl (255 / 100) - 255 / 100| ≤ 1 / 2 ^ 51 := by
      have : |(255 : ℚ) / 100| / 2 ^ 53 + 1 / 2 ^ 60 ≤ 1 / 2 ^ 51 := by
        rw [abs_of_pos (by norm_num)]; norm_num
      linarith
    generalize F.fl (255 / 100) = ρ at *
    have d1 : |x * ρ - x / 100 * 255| ≤ 1000 / 2 ^ 51 := by
      have : x * ρ - x / 100 * 255 = x * (ρ - 255 / 100) := by ring
      rw [this, abs_mul]
      calc |x| * |ρ - 255 / 100| ≤ 1000 * (1 / 2 ^ 51) := mul_le_mul hx hr (abs_nonneg _) (by norm_num)
        _ = 1000 / 2 ^ 51 := by ring
    have d2 : |x * ρ| / 2 ^ 53 ≤ 1 / 2 ^ 41 := by
      have hρ : |ρ| ≤ 3 := by
        rw [abs_le] at hr ⊢
        have : (1 : ℚ) / 2 ^ 51 ≤ 1 / 10 := by norm_num
        constructor <;> linarith [hr.1, hr.2]
      rw [div_le_iff₀ (by norm_num), abs_mul]
      calc |x| * |ρ| ≤ 1000 * 3 := mul_le_mul hx hρ (abs_nonneg _) (by norm_num)
        _ ≤ 1 / 2 ^ 41 * 2 ^ 53 := by norm_num
    unfold Rounded
    have t1 := abs_add_le ((pyRound (F.fl (x * ρ)) : ℚ) - F.fl (x * ρ)) (F.fl (x * ρ) - x * ρ)
    have t2 := abs_add_le ((pyRound (F.fl (x * ρ)) : ℚ) - x * ρ) (x * ρ - x / 100 * 255)
    rw [sub_add_sub_cancel] at t1 t2
    have t3 : (1000 : ℚ) / 2 ^ 51 + 1 / 2 ^ 41 + 1 / 2 ^ 60 ≤ 1 / 2 ^ 40 := by norm_num
    linarith
  have all : ∀ x : ℚ, Rounded (clampI (pyRound (F.fl (x * F.fl (255 / 100))))) (limit 0 255 (x / 100 * 255)) := by
    intro x
    by_cases hx : |x| ≤ 1000
    · exact rounded_clamp (key x hx)
    · have e1 := F.err (255 / 100)
      have e2 := F.err (x * F.fl (255 / 100))
      have e3 := pyRound_err (F.fl (x * F.fl (255 / 100)))
      have t := tiny
      have hρ : 2 ≤ F.fl (255 / 100) := by
        have : |(255 : ℚ) / 100| / 2 ^ 53 + 1 / 2 ^ 60 ≤ 1 / 2 := by
          rw [abs_of_pos (by norm_num)]; norm_num
        rw [abs_le] at e1
        linarith [e1.1]
      generalize F.fl (255 / 100) = ρ at *
      have t2 : (1 : ℚ) / 2 ^ 60 ≤ 1 := by norm_num
      have t3 : |x * ρ| / 2 ^ 53 ≤ |x * ρ| / 2 := div_le_div_of_nonneg_left (abs_nonneg _) (by norm_num) (by norm_num)
      have zero : Rounded 0 0 := by
        unfold Rounded
        norm_num
      have full : Rounded 255 255 := by
        unfold Rounded
        norm_num
      have e4 : |F.fl (x * ρ) - x * ρ| ≤ |x * ρ| / 2 + 1 := by linarith
      rw [abs_le] at e3 e4
      rcases lt_or_ge x 0 with c | c
      · rw [abs_of_neg c] at hx
        have hm : x * ρ ≤ -2000 := by nlinarith
        rw [abs_of_neg (by linarith)] at e4
        have hn : (pyRound (F.fl (x * ρ)) : ℚ) ≤ 0 := by linarith [e3.2, e4.2]
        have hn' : pyRound (F.fl (x * ρ)) ≤ 0 := by exact_mod_cast hn
        have : clampI (pyRound (F.fl (x * ρ))) = 0 := by unfold clampI; omega
        rw [this]
        have : limit 0 255 (x / 100 * 255) = 0 := by
          unfold limit
          rw [min_eq_right (by linarith), max_eq_left (by linarith)]
        rw [this]
        exact zero
      · rw [abs_of_nonneg c] at hx
        have hm : 2000 ≤ x * ρ := by nlinarith
        rw [abs_of_nonneg (by linarith)] at e4
        have hn : (255 : ℚ) ≤ pyRound (F.fl (x * ρ)) := by linarith [e3.1, e4.1]
        have hn' : 255 ≤ pyRound (F.fl (x * ρ)) := by exact_mod_cast hn
        have : clampI (pyRound (F.fl (x * ρ))) = 255 := by unfold clampI; omega
        rw [this]
        have : limit 0 255 (x / 100 * 255) = 255 := by
          unfold limit
          rw [min_eq_left (by linarith), max_eq_right (by norm_num)]
        rw [this]
        exact full
  exact all x

/-- **C124** `rgb(p1%, p2%, p3%)`, with or without an opacity: the channels are the percentages of 255, limited and rounded. -/
theorem C124_percent (F : FloatRounding) (pyInt : List Char → Option ℤ) {s v1 v2 v3 : List Char} {v4 : Option (List Char)} {x1 x2 x3 o : ℚ}
    (h : FunText "rgb".toList true true true v1 v2 v3 v4 s)
    (h1 : Value v1 x1) (h2 : Value v2 x2) (h3 : Value v3 x3) (h4 : Opacity v4 o) :
    ∃ c r g b a, parse F pyInt (some s) = .ok (some c) ∧ Color.red (some c) = some r ∧ Color.green (some c) = some g ∧
      Color.blue (some c) = some b ∧ Color.alpha (some c) = some a ∧
      Rounded r (limit 0 255 (x1 / 100 * 255)) ∧ Rounded g (limit 0 255 (x2 / 100 * 255)) ∧ Rounded b (limit 0 255 (x3 / 100 * 255)) ∧
      Rounded a (limit 0 1 o * 255) := by
  have all := percent_rounded F
  obtain ⟨k1, k2, k3, a, k4, k5⟩ := rgbToInt_get F (pyRound (F.fl (x1 * F.fl (255 / 100))) : ℤ) (pyRound (F.fl (x2 * F.fl (255 / 100))) : ℤ)
    (pyRound (F.fl (x3 * F.fl (255 / 100))) : ℤ) o
  refine ⟨_, _, _, _, a, ?_, k1, k2, k3, k4, ?_, ?_, ?_, k5⟩
  · rw [parse_rgbp F pyInt h]
    unfold parseRgbp
    simp only
    rw [opac_eq h4, value_floatVal h1, value_floatVal h2, value_floatVal h3]
  · rw [clamp255_int]; exact all x1
  · rw [clamp255_int]; exact all x2
  · rw [clamp255_int]; exact all x3

/-! ### Hue, saturation, lightness -/

/-- the level at the place `x` of the colour circle, in turns -/
theorem hue2rgb_level (l a x : ℚ) (h1 : -1 ≤ x) (h2 : x ≤ 2) : hue2rgb (l - a) (l + a) x =
    l - a * max (-1) (min (min (mod12 (12 * x + 8) - 3) (9 - mod12 (12 * x + 8))) 1) := by
  obtain ⟨y, hy0, hy1, hy, hm⟩ : ∃ y : ℚ, 0 ≤ y ∧ y ≤ 1 ∧ (let vh := if x < 0 then x + 1 else x; if vh > 1 then vh - 1 else vh) = y ∧
      ∃ n : ℤ, x = y + n := by
    by_cases c1 : x < 0
    · refine ⟨x + 1, by linarith, by linarith, ?_, -1, by push_cast; ring⟩
      simp only [if_pos c1]
      rw [if_neg (by linarith)]
    · by_cases c2 : x > 1
      · refine ⟨x - 1, by linarith, by linarith, ?_, 1, by push_cast; ring⟩
        simp only [if_neg c1, if_pos c2]
      · refine ⟨x, by linarith, by linarith, ?_, 0, by push_cast; ring⟩
        simp only [if_neg c1, if_neg c2]
  obtain ⟨n, rfl⟩ := hm
  have hmod : ∀ k : ℚ, ∀ z : ℤ, 0 ≤ k → k < 12 → 12 * (y + n) + 8 = k + 12 * z → mod12 (12 * (y + n) + 8) = k := by
    intro k z k0 k1 e
    unfold mod12
    have : ⌊(12 * (y + n) + 8) / 12⌋ = z := by
      rw [Int.floor_eq_iff, e]
      constructor
      · rw [le_div_iff₀ (by norm_num)]; linarith
      · rw [div_lt_iff₀ (by norm_num)]; linarith
    rw [this, e]
    ring
  unfold hue2rgb
  simp only at hy ⊢
  rw [hy]
  by_cases c1 : 6 * y < 1
  · rw [if_pos c1, hmod (12 * y + 8) n (by linarith) (by linarith) (by ring)]
    have e1 : min (min (12 * y + 8 - 3) (9 - (12 * y + 8))) 1 = 1 - 12 * y := by
      rw [min_eq_right (a := 12 * y + 8 - 3) (by linarith), min_eq_left (by linarith)]; ring
    rw [e1, max_eq_right (by linarith)]
    ring
  rw [if_neg c1]
  by_cases c2 : 2 * y < 1
  · rw [if_pos c2]
    by_cases c3 : 3 * y < 1
    · rw [hmod (12 * y + 8) n (by linarith) (by linarith) (by ring)]
      have e1 : min (min (12 * y + 8 - 3) (9 - (12 * y + 8))) 1 = 1 - 12 * y := by
        rw [min_eq_right (a := 12 * y + 8 - 3) (by linarith), min_eq_left (by linarith)]; ring
      rw [e1, max_eq_left (by linarith)]
      ring
    · rw [hmod (12 * y - 4) (n + 1) (by linarith) (by linarith) (by push_cast; ring)]
      have e1 : min (min (12 * y - 4 - 3) (9 - (12 * y - 4))) 1 = 12 * y - 7 := by
        rw [min_eq_left (a := 12 * y - 4 - 3) (by linarith), min_eq_left (by linarith)]; ring
      rw [e1, max_eq_left (by linarith)]
      ring
  rw [if_neg c2]
  by_cases c3 : 3 * y < 2
  · rw [if_pos c3, hmod (12 * y - 4) (n + 1) (by linarith) (by linarith) (by push_cast; ring)]
    have e1 : min (min (12 * y - 4 - 3) (9 - (12 * y - 4))) 1 = 12 * y - 7 := by
      rw [min_eq_left (a := 12 * y - 4 - 3) (by linarith), min_eq_left (by linarith)]; ring
    rw [e1, max_eq_right (by linarith)]
    ring
  · rw [if_neg c3, hmod (12 * y - 4) (n + 1) (by linarith) (by linarith) (by push_cast; ring)]
    have e1 : min (min (12 * y - 4 - 3) (9 - (12 * y - 4))) 1 = 1 := min_eq_right (le_min (by linarith) (by linarith))
    rw [e1, max_eq_right (by norm_num)]
    ring

theorem clamp01_limit (x : ℚ) : clamp01 x = limit 0 1 x := opacity_limit x

/-- the conversion of the code, for hues from -240 to 600 degrees, gives the levels of CSS -/
theorem hslToInt_levels (F : FloatRounding) {h0 sa li o : ℚ} (hh : -240 ≤ h0 ∧ h0 ≤ 600) :
    hslToInt F (h0 / 360) sa li o =
      rgbToInt F (255 * hslLevel h0 sa li 0) (255 * hslLevel h0 sa li 8) (255 * hslLevel h0 sa li 4) o := by
  unfold hslToInt
  by_cases hs : sa = 0
  · rw [if_pos hs]
    have : ∀ n, hslLevel h0 sa li n = li := by
      intro n
      unfold hslLevel
      rw [hs]
      ring
    simp only [this]
  · rw [if_neg hs]
    have v2 : (if li < 1 / 2 then li * (1 + sa) else li + sa - sa * li) = li + sa * min li (1 - li) := by
      split
      · rw [min_eq_left (by linarith)]; ring
      · rw [min_eq_right (by linarith)]; ring
    simp only [v2]
    have v1 : 2 * li - (li + sa * min li (1 - li)) = li - sa * min li (1 - li) := by ring
    rw [v1, hue2rgb_level _ _ (h0 / 360 + 1 / 3) (by linarith [hh.1]) (by linarith [hh.2]),
      hue2rgb_level _ _ (h0 / 360) (by linarith [hh.1]) (by linarith [hh.2]),
      hue2rgb_level _ _ (h0 / 360 - 1 / 3) (by linarith [hh.1]) (by linarith [hh.2])]
    have m0 : mod12 (12 * (h0 / 360 + 1 / 3) + 8) = mod12 (0 + h0 / 30) := by
      have e : 12 * (h0 / 360 + 1 / 3) + 8 = (0 + h0 / 30) + 12 := by ring
      rw [e]
      unfold mod12
      rw [add_div, div_self (by norm_num), Int.floor_add_one]
      push_cast
      ring
    have m8 : 12 * (h0 / 360) + 8 = 8 + h0 / 30 := by ring
    have m4 : 12 * (h0 / 360 - 1 / 3) + 8 = 4 + h0 / 30 := by ring
    rw [m0, m8, m4]
    rfl

/-- **C124**, hue, saturation and lightness: for hues from -240 to 600 degrees the channels are 255 times the level that CSS defines, cut to a
whole number. Missing for the whole claim: other hues (`C124_hue_wrong`), hues with a unit, and rounding to the nearest number instead of
cutting (`C124_cut_wrong`). -/
theorem C124_hsl_partial (F : FloatRounding) (pyInt : List Char → Option ℤ) {s v1 v2 v3 : List Char} {v4 : Option (List Char)}
    {h0 s0 l0 o : ℚ} (h : FunText "hsl".toList false true true v1 v2 v3 v4 s)
    (h1 : Value v1 h0) (h2 : Value v2 s0) (h3 : Value v3 l0) (h4 : Opacity v4 o) (hh : -240 ≤ h0 ∧ h0 ≤ 600) :
    ∃ c a, parse F pyInt (some s) = .ok (some c) ∧
      Color.red (some c) = some ⌊255 * hslLevel h0 (limit 0 1 (s0 / 100)) (limit 0 1 (l0 / 100)) 0⌋ ∧
      Color.green (some c) = some ⌊255 * hslLevel h0 (limit 0 1 (s0 / 100)) (limit 0 1 (l0 / 100)) 8⌋ ∧
      Color.blue (some c) = some ⌊255 * hslLevel h0 (limit 0 1 (s0 / 100)) (limit 0 1 (l0 / 100)) 4⌋ ∧
      Color.alpha (some c) = some a ∧ Rounded a (limit 0 1 o * 255) := by
  obtain ⟨S0, S1⟩ := limit_mem (zero_le_one (α := ℚ)) (s0 / 100)
  obtain ⟨L0, L1⟩ := limit_mem (zero_le_one (α := ℚ)) (l0 / 100)
  have hp := parse_hsl F pyInt h
  unfold parseHsl at hp
  simp only [clamp01_limit] at hp
  rw [opac_eq h4, value_floatVal h1, value_floatVal h2, value_floatVal h3] at hp
  generalize limit 0 1 (s0 / 100) = sa at *
  generalize limit 0 1 (l0 / 100) = li at *
  have A0 : 0 ≤ min li (1 - li) := le_min L0 (by linarith)
  have A1 : sa * min li (1 - li) ≤ min li (1 - li) := mul_le_of_le_one_left A0 S1
  have A2 : 0 ≤ sa * min li (1 - li) := mul_nonneg S0 A0
  have A3 := min_le_left li (1 - li)
  have A4 := min_le_right li (1 - li)
  have range : ∀ n, 0 ≤ hslLevel h0 sa li n ∧ hslLevel h0 sa li n ≤ 1 := by
    intro n
    unfold hslLevel
    simp only
    generalize mod12 (n + h0 / 30) = k
    have m1 : -1 ≤ max (-1) (min (min (k - 3) (9 - k)) 1) := le_max_left _ _
    have m2 : max (-1) (min (min (k - 3) (9 - k)) 1) ≤ 1 := max_le (by norm_num) (min_le_right _ _)
    generalize max (-1) (min (min (k - 3) (9 - k)) 1) = m at *
    generalize sa * min li (1 - li) = q at *
    have := mul_le_mul_of_nonneg_left m1 A2
    have := mul_le_mul_of_nonneg_left m2 A2
    constructor <;> linarith
  have cl : ∀ n, clamp255 (255 * hslLevel h0 sa li n) = ⌊255 * hslLevel h0 sa li n⌋ := by
    intro n
    obtain ⟨r0, r1⟩ := range n
    unfold clamp255
    have : ⌊255 * hslLevel h0 sa li n⌋ ≤ 255 := by
      have : ⌊255 * hslLevel h0 sa li n⌋ ≤ ⌊(255 : ℚ)⌋ := Int.floor_le_floor (by linarith)
      rwa [show ⌊(255 : ℚ)⌋ = 255 from Int.floor_natCast 255] at this
    rw [min_eq_right this, max_eq_right (Int.floor_nonneg.2 (by linarith))]
  have key := hslToInt_levels F (sa := sa) (li := li) (o := o) hh
  obtain ⟨k1, k2, k3, a, k4, k5⟩ := rgbToInt_get F (255 * hslLevel h0 sa li 0) (255 * hslLevel h0 sa li 8) (255 * hslLevel h0 sa li 4) o
  rw [← key, cl] at k1 k2 k3
  rw [← key] at k4
  exact ⟨_, a, hp, k1, k2, k3, k4, k5⟩

/-- **C124**, decimals are refused: `rgb()` without percent signs raises ValueError as soon as one of the three numbers has a decimal point or
an exponent, although CSS allows that. -/
theorem C124_decimal_wrong (F : FloatRounding) (pyInt : List Char → Option ℤ) {s v1 v2 v3 : List Char} {v4 : Option (List Char)}
    (h : FunText "rgb".toList false false false v1 v2 v3 v4 s) (hw : ¬ (IsWhole v1 ∧ IsWhole v2 ∧ IsWhole v3)) :
    parse F pyInt (some s) = .error .valueError := by
  rw [parse_rgb F pyInt h, parseRgb_error F hw]
  rfl

theorem paren_normalise {s : List Char} (h : '(' ∈ s) : '(' ∈ normalise s := by
  unfold normalise
  rw [List.mem_flatMap]
  exact ⟨'(', List.mem_filter.2 ⟨h, by decide⟩, by decide⟩

/-- **C124**, the other texts: whatever has a parenthesis and is written in none of the three ways is opaque black, without an error. (Python's
`int` does not read a text with a parenthesis.) -/
theorem C124_other (F : FloatRounding) (pyInt : List Char → Option ℤ) (hi : ∀ t : List Char, '(' ∈ t → pyInt t = none) {s : List Char}
    (hp : '(' ∈ s)
    (h1 : ∀ v1 v2 v3 v4, ¬ FunText "rgb".toList false false false v1 v2 v3 v4 s)
    (h2 : ∀ v1 v2 v3 v4, ¬ FunText "rgb".toList true true true v1 v2 v3 v4 s)
    (h3 : ∀ v1 v2 v3 v4, ¬ FunText "hsl".toList false true true v1 v2 v3 v4 s) :
    parse F pyInt (some s) = .ok (some 0x000000FF) := by
  have none_of : ∀ name p1 p2 p3, (∀ v1 v2 v3 v4, ¬ FunText name p1 p2 p3 v1 v2 v3 v4 s) → matchFun name p1 p2 p3 s = none := by
    intro name p1 p2 p3 hn
    cases hm : matchFun name p1 p2 p3 s with
    | none => rfl
    | some g =>
      obtain ⟨v1, v2, v3, v4⟩ := g
      exact absurd ((matchFun_iff _ _ _ _ _ _ _ _ _).1 hm) (hn _ _ _ _)
  have hq := paren_normalise hp
  have ht : normalise s ≠ "transparent".toList := by
    intro e
    rw [e] at hq
    exact absurd hq (by decide)
  have hfind : Color.keywordTable.find? (fun e => e.1 = Color.normalise s) = none := by
    rw [List.find?_eq_none]
    intro e he hcon
    have hno : ∀ e ∈ Color.keywordTable, '(' ∉ e.1 := by decide +kernel
    simp only [decide_eq_true_eq] at hcon
    rw [← hcon] at hq
    exact hno e he hq
  unfold parse
  simp only
  rw [if_neg (paren_not_none hp), paren_not_hex hp, none_of _ _ _ _ h1, none_of _ _ _ _ h2, none_of _ _ _ _ h3]
  simp only [Bool.false_eq_true, if_false]
  unfold parseLookup
  simp only [if_neg ht, hfind, hi _ hq]
  have := rgbToInt_opaque F 0 0 0
  push_cast at this
  rw [this]
  decide +kernel

theorem number_of_digits {v : List Char} (h : Digits v) (hne : v ≠ []) : IsNumber v :=
  ⟨[], v, [], by simp, .inl rfl, ⟨v, [], by simp, h, .inl ⟨rfl, hne⟩⟩, .inl rfl⟩

theorem value_of_digits {v : List Char} (h : Digits v) (hne : v ≠ []) : Value v (whole v) :=
  ⟨[], v, [], [], 0, 0, by simp, .inl rfl, h, .inl hne, .inl ⟨rfl, rfl⟩, .inl ⟨rfl, rfl⟩, by simp⟩

/-- three rows of digits with no spaces -/
theorem funText_plain (name : List Char) (p1 p2 p3 : Bool) {v1 v2 v3 : List Char} (h1 : IsNumber v1) (h2 : IsNumber v2) (h3 : IsNumber v3) :
    FunText name p1 p2 p3 v1 v2 v3 none
      (name ++ '(' :: (v1 ++ (percent p1 ++ ',' :: (v2 ++ (percent p2 ++ ',' :: (v3 ++ (percent p3 ++ [')']))))))) := by
  have hw : White [] := (by intro c hc; cases hc)
  refine ⟨h1, h2, h3, [], [], [], [], [], [], [], [')'], .inl rfl, hw, hw, hw, hw, hw, hw, ⟨[], rfl⟩, ?_⟩
  simp

/-- the hypotheses of `C124_rgb` and of `C124_percent` are met: `rgba( 300 , 20,0, .5 ) ` with the values 300, 20, 0 and 1/2 -/
example : FunText "rgb".toList false false false "300".toList "20".toList "0".toList (some ".5".toList) "rgba( 300 , 20,0, .5 ) ".toList ∧
    IsWhole "300".toList ∧ Value "300".toList 300 ∧ Opacity (some ".5".toList) (1 / 2) := by
  have d3 : Digits "300".toList := by unfold Digits IsDigit; decide
  have d5 : Digits ['5'] := by unfold Digits IsDigit; decide
  have hw : White [] := (by intro c hc; cases hc)
  have hs : White [' '] := by unfold White; decide
  refine ⟨⟨number_of_digits d3 (by decide), number_of_digits (by unfold Digits IsDigit; decide) (by decide),
    number_of_digits (by unfold Digits IsDigit; decide) (by decide), ['a'], [' '], [' '], [' '], [], [], [], ", .5 ) ".toList, .inr rfl, hs, hs,
    hs, hw, hw, hw, ⟨?_, [' '], [' '], [' '], hs, hs, rfl⟩, by decide⟩, ⟨[], "300".toList, rfl, .inl rfl, d3, by decide⟩, ?_, ?_⟩
  · exact ⟨[], ['.', '5'], [], rfl, .inl rfl, ⟨[], ['.', '5'], rfl, (by intro c hc; cases hc), .inr ⟨['5'], rfl, by decide, d5⟩⟩, .inl rfl⟩
  · have := value_of_digits d3 (by decide)
    rwa [show whole "300".toList = 300 by decide] at this
  · refine ⟨[], [], ['.', '5'], [], 1 / 2, 0, rfl, .inl rfl, (by intro c hc; cases hc), .inr (by decide), .inr ⟨['5'], rfl, by decide, d5, ?_⟩,
      .inl ⟨rfl, rfl⟩, ?_⟩
    · rw [show whole ['5'] = 5 by decide]; norm_num
    · norm_num [whole]

/-- the hypotheses of `C124_hsl_partial` are met: `hsl(120,100%,25%)` is dark green, 0 127 0 -/
example : FunText "hsl".toList false true true "120".toList "100".toList "25".toList none "hsl(120,100%,25%)".toList ∧
    Value "120".toList 120 ∧ (-240 : ℚ) ≤ 120 ∧ (120 : ℚ) ≤ 600 ∧ ⌊255 * hslLevel 120 1 (1 / 4) 8⌋ = 127 := by
  refine ⟨?_, ?_, by norm_num, by norm_num, by decide +kernel⟩
  · have := funText_plain "hsl".toList false true true (v1 := "120".toList) (v2 := "100".toList) (v3 := "25".toList)
      (number_of_digits (by unfold Digits IsDigit; decide) (by decide)) (number_of_digits (by unfold Digits IsDigit; decide) (by decide))
      (number_of_digits (by unfold Digits IsDigit; decide) (by decide))
    exact this
  · have := value_of_digits (v := "120".toList) (by unfold Digits IsDigit; decide) (by decide)
    rwa [show whole "120".toList = 120 by decide] at this

/-- **C124**, hues of two turns or more fail: `hsl(720,100%,50%)` is red for CSS, and black here. -/
theorem C124_hue_wrong (pyInt : List Char → Option ℤ) :
    FunText "hsl".toList false true true "720".toList "100".toList "50".toList none "hsl(720,100%,50%)".toList ∧
    parse FloatRounding.id pyInt (some "hsl(720,100%,50%)".toList) = .ok (some 0x000000FF) ∧
    ⌊255 * hslLevel 720 1 (1 / 2) 0⌋ = 255 ∧ ⌊255 * hslLevel 720 1 (1 / 2) 8⌋ = 0 ∧ ⌊255 * hslLevel 720 1 (1 / 2) 4⌋ = 0 := by
  have ht := funText_plain "hsl".toList false true true (v1 := "720".toList) (v2 := "100".toList) (v3 := "50".toList)
      (number_of_digits (by unfold Digits IsDigit; decide) (by decide)) (number_of_digits (by unfold Digits IsDigit; decide) (by decide))
      (number_of_digits (by unfold Digits IsDigit; decide) (by decide))
  refine ⟨ht, ?_, by decide +kernel, by decide +kernel, by decide +kernel⟩
  have := parse_hsl FloatRounding.id pyInt ht
  refine Eq.trans this ?_
  clear this ht
  decide +kernel

/-- **C124**, the channels of `hsl()` are cut, not rounded: `hsl(0,0%,50%)` and `rgb(50%,50%,50%)` are the same grey for CSS, and 127 and 128
here. -/
theorem C124_cut_wrong (pyInt : List Char → Option ℤ) :
    parse FloatRounding.id pyInt (some "hsl(0,0%,50%)".toList) = .ok (some 0x7F7F7FFF) ∧
    parse FloatRounding.id pyInt (some "rgb(50%,50%,50%)".toList) = .ok (some 0x808080FF) ∧ 255 * hslLevel 0 0 (1 / 2) 0 = 50 / 100 * 255 := by
  have h1 := funText_plain "hsl".toList false true true (v1 := "0".toList) (v2 := "0".toList) (v3 := "50".toList)
      (number_of_digits (by unfold Digits IsDigit; decide) (by decide)) (number_of_digits (by unfold Digits IsDigit; decide) (by decide))
      (number_of_digits (by unfold Digits IsDigit; decide) (by decide))
  have h2 := funText_plain "rgb".toList true true true (v1 := "50".toList) (v2 := "50".toList) (v3 := "50".toList)
      (number_of_digits (by unfold Digits IsDigit; decide) (by decide)) (number_of_digits (by unfold Digits IsDigit; decide) (by decide))
      (number_of_digits (by unfold Digits IsDigit; decide) (by decide))
  refine ⟨Eq.trans (parse_hsl FloatRounding.id pyInt h1) ?_, Eq.trans (parse_rgbp FloatRounding.id pyInt h2) ?_, by decide +kernel⟩
  · clear h1 h2
    decide +kernel
  · clear h1 h2
    decide +kernel

/-- the hypotheses of `C124_decimal_wrong` are met by `rgb(1.5,2,3)` -/
example : ¬ IsWhole "1.5".toList := by
  rintro ⟨sg, ds, e, hs, hd, -⟩
  rcases hs with rfl | rfl | rfl
  · have : '.' ∈ ds := by rw [List.nil_append] at e; rw [← e]; decide
    exact absurd (hd _ this) (by unfold IsDigit; decide)
  · exact absurd (congrArg List.head? e) (by simp)
  · exact absurd (congrArg List.head? e) (by simp)

/-- the hypotheses of `C124_other` are met by `RGB(1,2,3)` -/
example : '(' ∈ "RGB(1,2,3)".toList ∧ ∀ p1 p2 p3 v1 v2 v3 v4, ¬ FunText "rgb".toList p1 p2 p3 v1 v2 v3 v4 "RGB(1,2,3)".toList := by
  refine ⟨by decide, ?_⟩
  rintro p1 p2 p3 v1 v2 v3 v4 ⟨-, -, -, a, w1, w2, w3, w4, w5, w6, e, -, -, -, -, -, -, -, -, h⟩
  exact absurd (congrArg List.head? h) (show some 'R' ≠ some 'r' by decide)

end Svgio.Props
