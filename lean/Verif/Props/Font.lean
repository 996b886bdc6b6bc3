import Verif.Lemmas.Font
import Verif.Lemmas.TransformRun
import Verif.Props.ColorFun
import Verif.Props.NumberValue

/-! C146: `text.parse_font(font)`. -/

namespace Svgio.Props
open Svgio.Font Svgio.Spec

/-- a size of the specification, as the library keeps it: a number, or a Length -/
def keptSize : Size → Val ℚ
  | .pixels x => .num x
  | .relative x u => .len ⟨x, Units.ofText u⟩

/-- what should become of the weight: `bold` is 700, three digits are the number; the code raises ValueError for the others -/
def weightSpec : Option (List Char) → Except PyErr (Option ℤ)
  | none => .ok none
  | some w => if w = "bold".toList then .ok (some 700) else if w ∈ ["bolder".toList, "lighter".toList] then .error .valueError
    else .ok (some (whole w))

/-- the face without a comma at its end -/
def FaceOf (face f : List Char) : Prop := face = f ++ [','] ∨ (face = f ∧ ∀ g, face ≠ g ++ [','])

theorem dropComma_spec (face : List Char) : FaceOf face (dropComma face) := by
  unfold dropComma FaceOf
  rcases List.eq_nil_or_concat face with rfl | ⟨g, c, rfl⟩
  · simp
  · by_cases hc : c = ','
    · subst hc; left; simp
    · right
      have : (g.concat c).getLast? ≠ some ',' := by simp [hc]
      rw [if_neg this]
      refine ⟨rfl, fun x hx => hc ?_⟩
      rw [List.concat_eq_append] at hx
      exact (List.cons.inj (List.append_inj_right' hx rfl)).1

theorem weight_ok {its : List (List Char × ℕ)} (hits : ∀ it ∈ its, IsItem it) : weightRun (lastWeight its) = weightSpec (lastWeight its) := by
  cases hw : lastWeight its with
  | none => rfl
  | some w =>
    rw [lastWeight, Option.map_eq_some_iff] at hw
    obtain ⟨it, h1, rfl⟩ := hw
    have hm := List.mem_of_getLast? h1
    have h3 : it.2 = 3 := by simpa using (List.mem_filter.1 hm).2
    rcases hits it (List.mem_of_mem_filter hm) with h | ⟨a, b, c, rfl, hd⟩
    · have : ∀ it ∈ table, it.2 = 3 → it.1 = "bold".toList ∨ it.1 = "bolder".toList ∨ it.1 = "lighter".toList := by decide
      rcases this it h h3 with e | e | e <;> rw [e] <;> rfl
    · have hx : ∀ w : List Char, Digits w → w ≠ [] → weightRun (some w) = weightSpec (some w) := by
        intro w hw hne
        obtain ⟨c, t, rfl⟩ : ∃ c t, w = c :: t := by
          cases w with
          | nil => exact absurd rfl hne
          | cons c t => exact ⟨c, t, rfl⟩
        have hc : isDig c = true := isDig_iff.2 (hw c (by simp))
        have n1 : c :: t ≠ "bold".toList := by rintro e; injection e with e _; subst e; exact absurd hc (by decide)
        have n2 : c :: t ≠ "normal".toList := by rintro e; injection e with e _; subst e; exact absurd hc (by decide)
        have n3 : c :: t ≠ "bolder".toList := by rintro e; injection e with e _; subst e; exact absurd hc (by decide)
        have n4 : c :: t ≠ "lighter".toList := by rintro e; injection e with e _; subst e; exact absurd hc (by decide)
        have hall : (c :: t).all isDig = true := List.all_eq_true.2 fun x hx => isDig_iff.2 (hw x hx)
        show (parseFontWeight (c :: t)).map some = (if c :: t = "bold".toList then .ok (some 700)
          else if c :: t ∈ ["bolder".toList, "lighter".toList] then .error .valueError else .ok (some (whole (c :: t)) : Option ℤ))
        unfold parseFontWeight
        have n5 : ¬ (c :: t ∈ ["bolder".toList, "lighter".toList]) := by
          simp only [List.mem_cons, List.not_mem_nil, or_false, not_or]
          exact ⟨n3, n4⟩
        rw [if_neg n1, if_neg n2, if_pos hall, if_neg n5, if_neg n1, natVal_whole hw]
        rfl
      exact hx _ hd (by simp)

theorem size_value {ds u : List Char} (hd : ds ≠ []) (hds : Digits ds) (hu : u ∈ fontUnits) :
    Len.value {} (Len.ofString (ds ++ u)) = .ok (keptSize (sizeSpec (whole ds) u)) := by
  have hn : IsNumber ds := ⟨[], ds, [], by simp, .inl rfl, ⟨ds, [], by simp, hds, .inl ⟨rfl, hd⟩⟩, .inl rfl⟩
  have hv : Value ds (whole ds) := ⟨[], ds, [], [], 0, 0, by simp, .inl rfl, hds, .inl hd, .inl ⟨rfl, rfl⟩, .inl ⟨rfl, rfl⟩, by simp⟩
  have hm : u ∈ unitTexts := by
    have : ∀ u ∈ fontUnits, u ∈ unitTexts := by decide
    exact this u hu
  rw [LMat.ofString_param hn hm, value_floatVal hv]
  simp only [fontUnits, List.mem_cons, List.not_mem_nil, or_false] at hu
  rcases hu with rfl | rfl | rfl | rfl | rfl <;> rfl

/-- **C146.** A font text of words (style, variant, weight, stretch; each followed by a space), a size in whole em, pt, pc, px or %, white space, a face and a
generic family: the weight is that of the last weight word, the size that of the text, the face what stands before the family, without a comma at
its end, the family the generic one. `bolder` and `lighter` raise ValueError. -/
theorem C146_font_partial (its : List (List Char × ℕ)) (hits : ∀ it ∈ its, IsItem it) (ds u sps face fam : List Char) (hd : ds ≠ [])
    (hds : Digits ds) (hu : u ∈ fontUnits) (hs : sps ≠ [] ∧ ∀ c ∈ sps, c ∈ spaces) (hface : ∃ f fs, face = f :: fs ∧ f ∉ spaces)
    (hnl : '\n' ∉ face) (hf : fam ∈ families) :
    ∃ f, FaceOf face f ∧ parseFont (itemsText its ++ (ds ++ (u ++ (sps ++ (face ++ ' ' :: fam))))) =
      (weightSpec (lastWeight its)).map fun w =>
        { weight := w, size := some (keptSize (sizeSpec (whole ds) u)), face := some f, family := some fam } := by
  refine ⟨dropComma face, dropComma_spec face, ?_⟩
  have hdd : ∀ c ∈ ds, isDig c = true := fun c hc => isDig_iff.2 (hds c hc)
  obtain ⟨f, fs, rfl, hff⟩ := hface
  obtain ⟨q, h1, h2⟩ := whole_match its hits (ds ++ u) (f :: fs) fam (ds ++ (u ++ (sps ++ (f :: fs ++ ' ' :: fam))))
    (fun K n k => item_none_digits K n k ds u _ hd hdd hu)
    (by
      intro c t e
      cases ds with
      | nil => exact absurd rfl hd
      | cons a ds =>
        injection e with e _
        have : isDig c = true := by rw [← e]; exact hdd a (by simp)
        by_contra h
        have hw : Color.isWs c = true := by simpa using h
        have : c ∈ spaces := (isWs_iff c).1 hw
        have hno : ∀ c ∈ spaces, isDig c = false := by decide +kernel
        rw [hno c this] at *
        contradiction)
    (by
      intro n k
      rw [Regex.first_cat, size_digits 5 _ n k ds u _ hd hdd hu]
      exact tail_some _ _ sps (f :: fs) fam (fun c hc => (isWs_iff c).2 (hs.2 c hc)) hf
        ⟨f, fs, rfl, by
          by_contra h
          exact hff ((isWs_iff f).1 (by simpa using h)), fun h => absurd h hs.1⟩ hnl)
  have hfam : fam ≠ [] := by
    have : ∀ fam ∈ families, fam ≠ [] := by decide
    exact this fam hf
  rw [parse_whole h1 h2 (by simp [hd]) hfam (fun it hit => item_ne (hits it hit)), weight_ok hits, size_value hd hds hu, if_neg (by simp)]
  cases weightSpec (lastWeight its) <;> rfl

example : (parseFont "italic bold 12px Arial Black, sans-serif".toList).toOption = some
    { weight := some 700, size := some (.num 12), face := some "Arial Black".toList, family := some "sans-serif".toList } := by
  rw [parseFont_eq]
  decide +kernel

/-- the hypotheses of `C146_font_partial` are met -/
example : ∃ f, FaceOf "Arial Black,".toList f ∧ parseFont (itemsText [("italic".toList, 1), ("bold".toList, 3)] ++
    ("12".toList ++ ("px".toList ++ (" ".toList ++ ("Arial Black,".toList ++ ' ' :: "sans-serif".toList))))) = .ok
    { weight := some 700, size := some (.num 12), face := some f, family := some "sans-serif".toList } := by
  obtain ⟨f, h1, h2⟩ := C146_font_partial [("italic".toList, 1), ("bold".toList, 3)]
    (by
      intro it hit
      left
      have : ∀ it ∈ [("italic".toList, 1), ("bold".toList, 3)], it ∈ table := by decide
      exact this it hit)
    "12".toList "px".toList " ".toList "Arial Black,".toList "sans-serif".toList (by decide)
    (by unfold Digits IsDigit; decide) (by decide) (by decide) ⟨'A', _, rfl, by decide⟩ (by decide) (by decide)
  exact ⟨f, h1, h2⟩

/-- **C146.** Without a face: the face is left as it was. -/
theorem C146_bare (its : List (List Char × ℕ)) (hits : ∀ it ∈ its, IsItem it) (ds u fam : List Char) (hd : ds ≠ [])
    (hds : Digits ds) (hu : u ∈ fontUnits) (hf : fam ∈ families) :
    parseFont (itemsText its ++ (ds ++ (u ++ ' ' :: fam))) =
      (weightSpec (lastWeight its)).map fun w =>
        { weight := w, size := some (keptSize (sizeSpec (whole ds) u)), face := none, family := some fam } := by
  have hdd : ∀ c ∈ ds, isDig c = true := fun c hc => isDig_iff.2 (hds c hc)
  obtain ⟨q, h1, h2⟩ := whole_match its hits (ds ++ u) [] fam (ds ++ (u ++ ' ' :: fam))
    (fun K n k => item_none_digits K n k ds u _ hd hdd hu)
    (by
      intro c t e
      cases ds with
      | nil => exact absurd rfl hd
      | cons a ds =>
        injection e with e _
        have : isDig c = true := by rw [← e]; exact hdd a (by simp)
        by_contra h
        have hw : Color.isWs c = true := by simpa using h
        have : c ∈ spaces := (isWs_iff c).1 hw
        have hno : ∀ c ∈ spaces, isDig c = false := by decide +kernel
        rw [hno c this] at *
        contradiction)
    (by
      intro n k
      rw [Regex.first_cat, size_digits 5 _ n k ds u _ hd hdd hu]
      exact tail_bare _ _ fam hf)
  have hfam : fam ≠ [] := by
    have : ∀ fam ∈ families, fam ≠ [] := by decide
    exact this fam hf
  rw [parse_whole h1 h2 (by simp [hd]) hfam (fun it hit => item_ne (hits it hit)), weight_ok hits, size_value hd hds hu, if_pos rfl]
  cases weightSpec (lastWeight its) <;> rfl

example : (parseFont "12pt serif".toList).toOption = some { size := some (.num (39999 / 2500)), family := some "serif".toList } := by
  rw [parseFont_eq]
  decide +kernel

/-- **C146 fails** for the sizes with names: every one of them sets the size 0, and of `larger` and `smaller` the last letters go into the face. -/
theorem C146_names_wrong (its : List (List Char × ℕ)) (hits : ∀ it ∈ its, IsItem it) (hw : lastWeight its = none) (face fam : List Char)
    (hface : ∃ f fs, face = f :: fs ∧ f ∉ spaces) (hnl : '\n' ∉ face) (hf : fam ∈ families) :
    (∀ w ∈ ["xx-small".toList, "x-small".toList, "small".toList, "medium".toList, "large".toList, "x-large".toList, "xx-large".toList],
      ∃ f, FaceOf face f ∧ parseFont (itemsText its ++ (w ++ ' ' :: (face ++ ' ' :: fam))) =
        .ok { size := some (.num 0), face := some f, family := some fam }) ∧
    (∃ f, FaceOf ("r ".toList ++ face) f ∧ parseFont (itemsText its ++ ("larger".toList ++ ' ' :: (face ++ ' ' :: fam))) =
      .ok { size := some (.num 0), face := some f, family := some fam }) ∧
    ∃ f, FaceOf ("er ".toList ++ face) f ∧ parseFont (itemsText its ++ ("smaller".toList ++ ' ' :: (face ++ ' ' :: fam))) =
      .ok { size := some (.num 0), face := some f, family := some fam } := by
  obtain ⟨f, fs, hfe, hff⟩ := hface
  have hfw : Color.isWs f = false := by
    by_contra h
    exact hff ((isWs_iff f).1 (by simpa using h))
  have hfam : fam ≠ [] := by
    have : ∀ fam ∈ families, fam ≠ [] := by decide
    exact this fam hf
  have zero : ∀ z ∈ sizeSplit, Len.value {} (Len.ofString z.2.1) = .ok (.num 0) ∧ z.2.1 ≠ [] := by
    intro z hz
    simp only [sizeSplit, List.mem_cons, List.not_mem_nil, or_false] at hz
    rcases hz with rfl | rfl | rfl | rfl | rfl | rfl | rfl | rfl | rfl <;> exact ⟨rfl, by decide⟩
  have nows : ∀ z ∈ sizeSplit, ∀ c t s, z.1 ++ ' ' :: s = c :: t → Color.isWs c = false := by
    intro z hz c t s e
    simp only [sizeSplit, List.mem_cons, List.not_mem_nil, or_false] at hz
    rcases hz with rfl | rfl | rfl | rfl | rfl | rfl | rfl | rfl | rfl <;> (injection e with e _; rw [← e]; decide)
  have main : ∀ z ∈ sizeSplit, ∀ g : List Char, g ≠ [] → (∀ n k, ∃ m', Regex.first reTail some ⟨n, z.2.2 ++ ' ' :: (face ++ ' ' :: fam), k⟩ =
        some ⟨m', [], (8, fam) :: (7, g) :: k⟩) →
      parseFont (itemsText its ++ (z.1 ++ ' ' :: (face ++ ' ' :: fam))) =
        .ok { size := some (.num 0), face := some (dropComma g), family := some fam } := by
    intro z hz g hg ht
    obtain ⟨q, h1, h2⟩ := whole_match its hits z.2.1 g fam (z.1 ++ ' ' :: (face ++ ' ' :: fam))
      (fun K n k => item_none_word K n k _ z hz) (fun c t e => nows z hz c t _ e)
      (by
        intro n k
        obtain ⟨m', h⟩ := ht (n + z.2.1.length) ((5, z.2.1) :: k)
        refine ⟨m', ?_⟩
        rw [Regex.first_cat]
        exact size_word 5 _ n k _ _ z hz h)
    rw [parse_whole h1 h2 (zero z hz).2 hfam (fun it hit => item_ne (hits it hit)), (zero z hz).1, if_neg hg, hw]
    rfl
  refine ⟨fun w hwm => ⟨_, dropComma_spec face, ?_⟩, ⟨_, dropComma_spec _, ?_⟩, ⟨_, dropComma_spec _, ?_⟩⟩
  · refine main (w, w, []) ?_ face (by rw [hfe]; simp) fun n k => ?_
    · have : ∀ w ∈ ["xx-small".toList, "x-small".toList, "small".toList, "medium".toList, "large".toList, "x-large".toList, "xx-large".toList],
          (w, w, []) ∈ sizeSplit := by decide
      exact this w hwm
    · exact tail_some n k [' '] face fam (by decide) hf ⟨f, fs, hfe, hfw, by simp⟩ hnl
  · refine main ("larger".toList, "large".toList, "r".toList) (by decide) ("r ".toList ++ face) (by simp) fun n k => ?_
    exact tail_some n k [] ("r ".toList ++ face) fam (by simp) hf ⟨'r', _, rfl, by decide, by decide⟩ (by simpa using hnl)
  · refine main ("smaller".toList, "small".toList, "er".toList) (by decide) ("er ".toList ++ face) (by simp) fun n k => ?_
    exact tail_some n k [] ("er ".toList ++ face) fam (by simp) hf ⟨'e', _, rfl, by decide, by decide⟩ (by simpa using hnl)

example : (parseFont "larger Arial, serif".toList).toOption = some
    { size := some (.num 0), face := some "r Arial".toList, family := some "serif".toList } := by
  rw [parseFont_eq]
  decide +kernel

/-- **C146 fails** for fonts without a generic family, which CSS allows: every text that has none of the five names in it raises IndexError. -/
theorem C146_no_family_wrong (s : List Char) (h : ∀ fam ∈ families, ¬ fam <:+: s) : parseFont s = .error .indexError := parse_no_family s h

example : parseFont "bold 12px Arial".toList = .error .indexError := C146_no_family_wrong _ (by decide)

/-- **C146 fails** for two fonts in one text, on two lines: TypeError. -/
theorem C146_two_wrong : parseFont "12px serif\n12px serif".toList = .error .typeError := by
  rw [parseFont_eq]
  rfl

end Svgio.Props
