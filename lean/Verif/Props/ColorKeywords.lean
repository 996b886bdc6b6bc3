import Verif.Props.ColorText

/-! C06: colour keywords. -/

namespace Svgio.Props
open Svgio.Spec

/-- a spelling of a keyword: any letter case, spaces anywhere -/
def Spells (s : List Char) (kw : String) : Prop := (s.filter (· ≠ ' ')).map Char.toLower = kw.toList

/-- characters that occur in keywords -/
def isLow (c : Char) : Bool := decide ('a' ≤ c) && decide (c ≤ 'z')

theorem lowerChar_of_toLower {c : Char} (h : isLow c.toLower = true) : Color.lowerChar c = [c.toLower] := by
  unfold Color.lowerChar
  by_cases hu : 'A' ≤ c ∧ c ≤ 'Z'
  · have h1 : c.toNat ≥ 65 ∧ c.toNat ≤ 90 := by
      simp only [Char.le_def, UInt32.le_iff_toNat_le] at hu
      exact hu
    have : ∀ n : Fin 26, (Char.ofNat (65 + n.val)).toLower = Char.ofNat (65 + n.val + 32) := by decide
    have h2 := this ⟨c.toNat - 65, by omega⟩
    simp only [show 65 + (c.toNat - 65) = c.toNat by omega, Char.ofNat_toNat] at h2
    rw [if_pos hu, h2]
  · have hl : c.toLower = c := by
      unfold Char.toLower
      split
      · rename_i hh
        exfalso
        apply hu
        simp only [Char.le_def, UInt32.le_iff_toNat_le]
        exact hh
      · rfl
    rw [hl] at h ⊢
    have hn : c.toNat ≤ 122 := by
      simp only [isLow, Bool.and_eq_true, decide_eq_true_eq, Char.le_def, UInt32.le_iff_toNat_le] at h
      exact h.2
    rw [if_neg hu, if_neg (by omega), if_neg (by omega)]

theorem normalise_spelling {s : List Char} {kw : String} (h : Spells s kw)
    (hk : ∀ c ∈ kw.toList, isLow c = true) : Color.normalise s = kw.toList := by
  unfold Spells at h
  unfold Color.normalise
  generalize s.filter (· ≠ ' ') = t at h ⊢
  rw [← h] at hk ⊢
  clear h
  induction t with
  | nil => rfl
  | cons c t ih =>
    simp only [List.flatMap_cons, List.map_cons]
    rw [lowerChar_of_toLower (hk _ (by simp)), ih (fun c hc => hk c (by simp only [List.map_cons, List.mem_cons]; exact Or.inr hc))]
    rfl

/-- every character of `s` that is not a space survives, lower-cased -/
theorem mem_spelling {s : List Char} {kw : String} (h : Spells s kw) {c : Char} (hc : c ∈ s)
    (hs : c ≠ ' ') : c.toLower ∈ kw.toList := by
  rw [← h]
  apply List.mem_map_of_mem
  simp [hc, hs]

theorem lit_mem {c : Char} {s r : List Char} (h : Color.lit c s = some r) : s = c :: r := by
  cases s with
  | nil => simp [Color.lit] at h
  | cons d s =>
    simp only [Color.lit] at h
    split at h <;> simp_all

theorem litWord_append : ∀ (w s r : List Char), Color.litWord w s = some r → s = w ++ r
  | [], s, r, h => by simpa [Color.litWord] using h
  | c :: w, s, r, h => by
    simp only [Color.litWord, Option.bind_eq_some_iff] at h
    obtain ⟨t, h1, h2⟩ := h
    rw [lit_mem h1, litWord_append w t r h2]
    rfl

/-- a functional notation contains a parenthesis -/
theorem matchFun_paren {name : List Char} {p1 p2 p3 : Bool} {s : List Char} {g}
    (h : Color.matchFun name p1 p2 p3 s = some g) : '(' ∈ s := by
  unfold Color.matchFun at h
  simp only [Option.bind_eq_bind, Option.bind_eq_some_iff] at h
  obtain ⟨t, h1, u, h2, -⟩ := h
  have := litWord_append _ _ _ h1
  have h3 := lit_mem h2
  subst this
  apply List.mem_append_right
  split at h3
  · rename_i r
    exact List.mem_cons_of_mem _ (by rw [h3]; simp)
  · rw [h3]; simp

/-- a hex text consists of `#`, hex digits and newlines -/
theorem matchHex_chars {s : List Char} (h : Color.matchHex s = true) :
    ∀ c ∈ s, c = '#' ∨ c = '\n' ∨ c ∈ hexDigits := by
  have ho : ∀ c ∈ s, c = '#' ∨ c ∈ Color.optHash s := by
    intro c hc
    cases s with
    | nil => simp at hc
    | cons d s =>
      simp only [Color.optHash]
      split
      · rename_i hd
        rcases List.mem_cons.mp hc with h | h
        · left; rw [h, hd]
        · right; exact h
      · right; exact hc
  intro c hc
  rcases ho c hc with h1 | h1
  · exact Or.inl h1
  · unfold Color.matchHex at h
    generalize Color.optHash s = t at h h1
    simp only [Bool.and_eq_true, Bool.or_eq_true, decide_eq_true_eq] at h
    rw [← List.takeWhile_append_dropWhile (p := Color.isHex) (l := t)] at h1
    rcases List.mem_append.mp h1 with h2 | h2
    · right; right
      exact (isHex_iff c).mp (mem_takeWhile_pos h2)
    · rcases h.2 with h3 | h3
      · rw [h3] at h2; simp at h2
      · rw [h3] at h2; right; left; simpa using h2

/-- a keyword-like word, as seen by `parse`: all lower-case letters, at least one of them not a
hex digit, not "none" -/
def plainWord (kw : String) : Bool :=
  kw.toList.all isLow && kw.toList.any (fun c => !hexDigits.contains c) && decide (kw ≠ "none")

theorem parse_spelling (F : FloatRounding) (pyInt : List Char → Option ℤ) {s : List Char} {kw : String}
    (h : Spells s kw) (hk : plainWord kw = true) :
    Color.parse F pyInt (some s) = .ok (some (Color.parseLookup F pyInt s)) := by
  simp only [plainWord, Bool.and_eq_true, decide_eq_true_eq, List.all_eq_true, List.any_eq_true,
    Bool.not_eq_true', List.contains_eq_mem, decide_eq_false_iff_not] at hk
  obtain ⟨⟨h1, ⟨c, hc, hcn⟩⟩, h3⟩ := hk
  have hparen : '(' ∉ s := by
    intro hm
    have := h1 _ (mem_spelling h hm (by decide))
    exact absurd this (by decide)
  have hnone : s ≠ "none".toList := by
    intro e
    subst e
    apply h3
    unfold Spells at h
    have e2 : "none".toList = kw.toList := by rw [← h]; decide
    exact (String.toList_inj.mp e2).symm
  have hhex : Color.matchHex s = false := by
    by_contra hm
    have hm : Color.matchHex s = true := by simpa using hm
    have hch := matchHex_chars hm
    rw [← h] at hc
    rw [List.mem_map] at hc
    obtain ⟨d, hd, rfl⟩ := hc
    have hd' := hch d (List.mem_of_mem_filter hd)
    rcases hd' with rfl | rfl | hd'
    · have := h1 '#'.toLower (by rw [← h]; exact List.mem_map_of_mem hd)
      exact absurd this (by decide)
    · have := h1 '\n'.toLower (by rw [← h]; exact List.mem_map_of_mem hd)
      exact absurd this (by decide)
    · have hl : ∀ c ∈ hexDigits, c.toLower ∈ hexDigits := by decide
      exact hcn (hl d hd')
  have hf : ∀ name p1 p2 p3, Color.matchFun name p1 p2 p3 s = none := by
    intro name p1 p2 p3
    cases hm : Color.matchFun name p1 p2 p3 s with
    | none => rfl
    | some g => exact absurd (matchFun_paren hm) hparen
  unfold Color.parse
  simp only [if_neg hnone, hhex, Bool.false_eq_true, if_false, hf]

theorem rgbToInt_opaque (F : FloatRounding) (r g b : ℤ) :
    Color.rgbToInt F r g b 1 = clampI r * 2 ^ 24 + clampI g * 2 ^ 16 + clampI b * 2 ^ 8 + 255 := by
  obtain ⟨a, -, -, ha, hv⟩ := rgbToInt_val F r g b 1
  have e : (if (if (1:ℚ) > 1 then 1 else 1) < (0:ℚ) then (0:ℚ) else (if (1:ℚ) > 1 then 1 else 1)) = 1 := by
    norm_num
  rw [e, round_one] at ha
  rw [hv, ha]
  simp only [clamp255_int]
  rfl

/-- the integer version of an entry of the keyword table, checked over the whole table below -/
def entryOk (kw : String) (rgb : ℕ) : Bool :=
  match Color.keywordTable.find? (fun e => e.1 = kw.toList) with
  | some (_, r, g, b) =>
    decide (r = ((rgb / 65536 : ℕ) : ℤ)) && decide (g = ((rgb / 256 % 256 : ℕ) : ℤ)) && decide (b = ((rgb % 256 : ℕ) : ℤ))
      && decide (rgb < 2 ^ 24)
  | none => false

theorem table_ok : ∀ e ∈ cssColors, e.1 ≠ "aliceblue" → entryOk e.1 e.2 = true := by decide +kernel

theorem table_plain : ∀ e ∈ cssColors, plainWord e.1 = true ∧ e.1 ≠ "transparent" := by decide +kernel

/-- **C06 (partial).** Every spelling of every CSS keyword other than `aliceblue` denotes the CSS
colour, opaque. Missing for the full claim: `aliceblue`, for which the code is wrong, see
`C06_aliceblue_wrong`. -/
theorem C06_keywords_partial (F : FloatRounding) (pyInt : List Char → Option ℤ) (s : List Char)
    (kw : String) (rgb : ℕ) (hkw : (kw, rgb) ∈ cssColors) (hne : kw ≠ "aliceblue") (h : Spells s kw) :
    Color.parse F pyInt (some s) = .ok (some ((rgb : ℤ) * 256 + 255)) := by
  have hp := table_plain _ hkw
  rw [parse_spelling F pyInt h hp.1]
  have hlow : ∀ c ∈ kw.toList, isLow c = true := by
    have := hp.1
    simp only [plainWord, Bool.and_eq_true, List.all_eq_true] at this
    exact this.1.1
  have hok := table_ok _ hkw hne
  unfold Color.parseLookup
  rw [normalise_spelling h hlow]
  have ht : kw.toList ≠ "transparent".toList := fun e => hp.2 (String.toList_inj.mp e)
  simp only [if_neg ht]
  unfold entryOk at hok
  split at hok
  · rename_i n r g b heq
    simp only [heq]
    simp only [Bool.and_eq_true, decide_eq_true_eq] at hok
    obtain ⟨⟨⟨rfl, rfl⟩, rfl⟩, hlt⟩ := hok
    rw [rgbToInt_opaque]
    unfold clampI
    congr 2
    push_cast
    omega
  · exact absurd hok (by simp)

/-- **C06.** The code reads `aliceblue` as rgb(250, 248, 255) instead of rgb(240, 248, 255): the
claim for all keywords is false. -/
theorem C06_aliceblue_wrong (F : FloatRounding) (pyInt : List Char → Option ℤ) :
    ("aliceblue", 0xF0F8FF) ∈ cssColors ∧
    Color.parse F pyInt (some "aliceblue".toList) = .ok (some 0xFAF8FFFF) := by
  refine ⟨by decide, ?_⟩
  have h : Spells "aliceblue".toList "aliceblue" := by unfold Spells; decide
  rw [parse_spelling F pyInt h (by decide)]
  have hl : ∀ c ∈ "aliceblue".toList, isLow c = true := by decide
  unfold Color.parseLookup
  rw [normalise_spelling h hl]
  have hf : Color.keywordTable.find? (fun e => e.1 = "aliceblue".toList) =
      some ("aliceblue".toList, 250, 248, 255) := by decide +kernel
  have ht : "aliceblue".toList ≠ "transparent".toList := by decide
  simp only [hf, if_neg ht]
  have := rgbToInt_opaque F 250 248 255
  push_cast at this
  rw [this]
  rfl

/-- **C06.** `transparent`, in any spelling, is transparent black. -/
theorem C06_transparent (F : FloatRounding) (pyInt : List Char → Option ℤ) (s : List Char)
    (h : Spells s "transparent") : Color.parse F pyInt (some s) = .ok (some 0) := by
  rw [parse_spelling F pyInt h (by decide)]
  have hl : ∀ c ∈ "transparent".toList, isLow c = true := by decide
  unfold Color.parseLookup
  rw [normalise_spelling h hl]
  obtain ⟨a, -, -, ha, hv⟩ := rgbToInt_val F 0 0 0 0
  have e : (if (if (0:ℚ) > 1 then 1 else 0) < (0:ℚ) then (0:ℚ) else (if (0:ℚ) > 1 then 1 else 0)) = 0 := by
    norm_num
  rw [e, round_zero] at ha
  simp only [if_true, hv, ha]
  decide +kernel

/-- **C06.** Any other text (no parenthesis, some character that is neither `#`, newline nor hex digit,
not "none", its normalised form neither a CSS keyword nor "transparent" nor an integer) is opaque black. -/
theorem C06_unknown_black (F : FloatRounding) (pyInt : List Char → Option ℤ) (s : List Char)
    (hp : '(' ∉ s) (hx : ∃ c ∈ s, c ≠ '#' ∧ c ≠ '\n' ∧ c ∉ hexDigits) (hn : s ≠ "none".toList)
    (hk : ∀ e ∈ cssColors, Color.normalise s ≠ e.1.toList)
    (ht : Color.normalise s ≠ "transparent".toList) (hi : pyInt (Color.normalise s) = none) :
    Color.parse F pyInt (some s) = .ok (some 0x000000FF) := by
  have hhex : Color.matchHex s = false := by
    by_contra hm
    have hm : Color.matchHex s = true := by simpa using hm
    obtain ⟨c, hc, h1, h2, h3⟩ := hx
    rcases matchHex_chars hm c hc with h | h | h
    · exact h1 h
    · exact h2 h
    · exact h3 h
  have hf : ∀ name p1 p2 p3, Color.matchFun name p1 p2 p3 s = none := by
    intro name p1 p2 p3
    cases hm : Color.matchFun name p1 p2 p3 s with
    | none => rfl
    | some g => exact absurd (matchFun_paren hm) hp
  have hfind : Color.keywordTable.find? (fun e => e.1 = Color.normalise s) = none := by
    rw [List.find?_eq_none]
    intro e he
    have hsub : ∀ e ∈ Color.keywordTable, ∃ d ∈ cssColors, d.1.toList = e.1 := by decide +kernel
    obtain ⟨d, hd, hde⟩ := hsub e he
    intro hcon
    simp only [decide_eq_true_eq] at hcon
    exact hk d hd (by rw [hde, hcon])
  unfold Color.parse
  simp only [if_neg hn, hhex, Bool.false_eq_true, if_false, hf]
  unfold Color.parseLookup
  simp only [if_neg ht, hfind, hi]
  have := rgbToInt_opaque F 0 0 0
  push_cast at this
  rw [this]
  decide +kernel

example : Spells "Dark Sea GREEN".toList "darkseagreen" := by unfold Spells; decide
example : ("darkseagreen", 0x8FBC8F) ∈ cssColors := by decide
example : Color.parse FloatRounding.id (fun _ => none) (some "no such".toList) = .ok (some 255) := by
  decide +kernel

end Svgio.Props
