import Verif.Model.Transform
import Verif.Spec.Transform
import Verif.Lemmas.Number

/-! Reading the text of a transform attribute finds exactly its functions and parameters. -/

namespace Svgio.Transform

open Svgio Spec Color

section findAll
variable {α : Type} {f : List Char → Option (α × List Char)}

theorem findAll_drop (n : ℕ) (s : List Char) : findAll f n s = findAll f 0 (s.drop n) := by
  induction n generalizing s with
  | zero => rfl
  | succ n ih =>
    cases s with
    | nil => simp [findAll]
    | cons c r => rw [findAll, ih]; rfl

theorem findAll_match {pre rest : List Char} {a : α} (hne : pre ≠ []) (h : f (pre ++ rest) = some (a, rest)) :
    findAll f 0 (pre ++ rest) = a :: findAll f 0 rest := by
  cases pre with
  | nil => exact absurd rfl hne
  | cons c pre =>
    rw [List.cons_append] at h
    simp only [List.cons_append, findAll, h]
    rw [findAll_drop]
    simp

theorem findAll_skip {sep rest : List Char} (h : ∀ c ∈ sep, ∀ r, f (c :: r) = none) :
    findAll f 0 (sep ++ rest) = findAll f 0 rest := by
  induction sep with
  | nil => rfl
  | cons c sep ih =>
    simp only [List.cons_append, findAll, h c (by simp)]
    exact ih (fun d hd => h d (by simp [hd]))

theorem findAll_none {sep : List Char} (h : ∀ c ∈ sep, ∀ r, f (c :: r) = none) : findAll f 0 sep = [] := by
  have := findAll_skip (rest := []) h
  rw [List.append_nil] at this
  rw [this]; rfl

end findAll

/-! ### literals -/

theorem litWord_append (w r : List Char) : litWord w (w ++ r) = some r := by
  induction w with
  | nil => rfl
  | cons c w ih => simp [litWord, lit, ih]

theorem litWord_some {w s r : List Char} (h : litWord w s = some r) : s = w ++ r := by
  induction w generalizing s with
  | nil => simpa [litWord] using h
  | cons c w ih =>
    cases s with
    | nil => simp [litWord, lit] at h
    | cons d s =>
      simp only [litWord, lit] at h
      split at h
      · rename_i hd; rw [Option.bind_some] at h; rw [ih h, hd]; rfl
      · simp at h

theorem skipWs_spaces {ws r : List Char} (h : Spaces ws) (hr : ∀ c ∈ r.head?, isWs c = false) :
    skipWs (ws ++ r) = r := by
  unfold skipWs
  rw [dropWhile_prefix]
  · cases r with
    | nil => rfl
    | cons c r => simp [List.dropWhile, hr c (by simp)]
  · intro c hc
    rcases h c hc with rfl | rfl | rfl | rfl <;> decide

/-! ### parameters -/

theorem numHead_not_letter {c : Char} (h : c = '+' ∨ c = '-' ∨ c = '.' ∨ IsDigit c) :
    isWs c = false ∧ c.toNat < 64 ∧ c ≠ '%' ∧ c ≠ ')' := by
  rcases h with rfl | rfl | rfl | h
  · decide
  · decide
  · decide
  · have h1 : 48 ≤ c.toNat ∧ c.toNat ≤ 57 := by
      simp only [IsDigit, Char.le_def, UInt32.le_iff_toNat_le] at h
      exact h
    refine ⟨?_, by omega, ?_, ?_⟩
    · unfold isWs; simp; omega
    · rintro rfl; exact absurd h1 (by decide)
    · rintro rfl; exact absurd h1 (by decide)

theorem sep_not_num {c : Char} (h : c = ',' ∨ c = ' ' ∨ c = '\t' ∨ c = '\n' ∨ c = '\r') (r : List Char) :
    matchFloat (c :: r) = none := by
  cases hm : matchFloat (c :: r) with
  | none => rfl
  | some v =>
    obtain ⟨e, hn⟩ := matchFloat_sound (t := v.1) (r := v.2) hm
    obtain ⟨d, t, ht, hd⟩ := isNumber_head hn
    rw [ht] at e
    simp only [List.cons_append, List.cons.injEq] at e
    rw [← e.1] at hd
    unfold IsDigit at hd
    exfalso
    clear e
    rcases h with rfl | rfl | rfl | rfl | rfl <;> revert hd <;> decide

theorem sep_not_param {c : Char} (h : c = ',' ∨ c = ' ' ∨ c = '\t' ∨ c = '\n' ∨ c = '\r') (r : List Char) :
    matchParam (c :: r) = none := by
  simp [matchParam, sep_not_num h]

/-- no unit starts here -/
def NoUnit (r : List Char) : Prop := ∀ c ∈ r.head?, c.toNat < 65 ∧ c ≠ '%'

theorem findUnit_none {r : List Char} (h : NoUnit r) :
    units.findSome? (fun u => (litWord u r).map (fun rest => (u, rest))) = none := by
  rw [List.findSome?_eq_none_iff]
  intro u hu
  cases hl : litWord u r with
  | none => rfl
  | some v =>
    exfalso
    have e := litWord_some hl
    have hd : ∀ u ∈ units, ∃ c r, u = c :: r ∧ ¬ (c.toNat < 65 ∧ c ≠ '%') := by
      intro u hu
      have : ∀ u ∈ units, u ≠ [] ∧ ∀ c ∈ u.head?, ¬ (c.toNat < 65 ∧ c ≠ '%') := by decide
      obtain ⟨h1, h2⟩ := this u hu
      cases u with
      | nil => exact absurd rfl h1
      | cons c r => exact ⟨c, r, rfl, h2 c (by simp)⟩
    obtain ⟨c, w, rfl, hc⟩ := hd u hu
    exact hc (h c (by rw [e]; simp))

theorem findUnit_some {u rest : List Char} (h : u ∈ unitTexts) (hne : u ≠ []) :
    units.findSome? (fun w => (litWord w (u ++ rest)).map (fun rest => (w, rest))) = some (u, rest) := by
  have key : ∀ w ∈ units, w ≠ u → litWord w (u ++ rest) = none := by
    intro w hw hwu
    cases hl : litWord w (u ++ rest) with
    | none => rfl
    | some v =>
      exfalso
      have e := litWord_some hl
      have pf : ∀ u ∈ unitTexts, u ≠ [] → ∀ w ∈ units, w ≠ u → ¬ w <+: u ∧ ¬ u <+: w := by decide
      obtain ⟨h1, h2⟩ := pf u h hne w hw hwu
      rcases List.append_eq_append_iff.1 e with ⟨a, ha, -⟩ | ⟨a, ha, -⟩
      · exact h2 ⟨a, ha.symm⟩
      · exact h1 ⟨a, ha.symm⟩
  have hmem : u ∈ units := by
    have : ∀ u ∈ unitTexts, u ≠ [] → u ∈ units := by decide
    exact this u h hne
  have gen : ∀ l : List (List Char), (∀ w ∈ l, w ∈ units) → u ∈ l →
      l.findSome? (fun w => (litWord w (u ++ rest)).map (fun rest => (w, rest))) = some (u, rest) := by
    intro l
    induction l with
    | nil => intro _ h; simp at h
    | cons w l ih =>
      intro hl hu
      by_cases hwu : w = u
      · subst hwu; simp [List.findSome?, litWord_append]
      · rw [List.findSome?_cons, key w (hl w (by simp)) hwu]
        refine ih (fun v hv => hl v (by simp [hv])) ?_
        rcases List.mem_cons.1 hu with hu | hu
        · exact absurd hu.symm hwu
        · exact hu
  exact gen units (fun _ h => h) hmem

/-- what the head of a parameter text can be -/
theorem paramsText_head {ps : List Param} {s : List Char} (h : ParamsText ps s) :
    ∀ c ∈ s.head?, c = ',' ∨ c = ' ' ∨ c = '\t' ∨ c = '\n' ∨ c = '\r' ∨
      (c = '+' ∨ c = '-' ∨ c = '.' ∨ IsDigit c) := by
  intro c hc
  cases h with
  | nil hs =>
    have := hs c (List.mem_of_mem_head? hc)
    tauto
  | @cons sep n ws u rest ps hsep hn hws hu hst hp =>
    cases sep with
    | nil =>
      obtain ⟨d, r, rfl, hd⟩ := isNumber_head hn
      simp at hc
      subst hc
      tauto
    | cons d sep =>
      simp at hc
      subst hc
      have := hsep d (by simp)
      tauto

theorem unitTexts_head {u : List Char} (h : u ∈ unitTexts) : ∀ c ∈ u.head?, isWs c = false := by
  have : ∀ u ∈ unitTexts, ∀ c ∈ u.head?, isWs c = false := by decide
  exact this u h

/-- white space cut off the front of a parameter text -/
theorem paramsText_skip {ps : List Param} {s : List Char} (h : ParamsText ps s) :
    NoUnit (skipWs s) ∧ findAll matchParam 0 (skipWs s) = findAll matchParam 0 s := by
  have hpre : ∃ p, s = p ++ skipWs s ∧ ∀ c ∈ p, isWs c = true :=
    ⟨s.takeWhile isWs, (takeWhile_append_dropWhile' isWs s).symm, fun c hc => mem_takeWhile_pos hc⟩
  have chars : ∀ c ∈ s, isWs c = true → c = ',' ∨ c = ' ' ∨ c = '\t' ∨ c = '\n' ∨ c = '\r' := by
    induction h with
    | nil hs => intro c hc _; exact hs c hc
    | @cons sep n ws u rest ps hsep hn hws hu hst hp ih =>
      intro c hc hw
      simp only [List.mem_append] at hc
      rcases hc with hc | hc | hc | hc | hc
      · exact hsep c hc
      · exfalso
        have := isNumber_chars hn c hc
        unfold NumChar at this
        rcases this with rfl | rfl | rfl | rfl | rfl | hd
        iterate 5 exact absurd hw (by decide)
        rw [(numHead_not_letter (by tauto)).1] at hw
        exact absurd hw (by simp)
      · have := hws c hc; tauto
      · exfalso
        have : ∀ u ∈ unitTexts, ∀ c ∈ u, isWs c = false := by decide
        rw [this u hu c hc] at hw
        simp at hw
      · exact ih ⟨rest.takeWhile isWs, (takeWhile_append_dropWhile' isWs rest).symm, fun c hc => mem_takeWhile_pos hc⟩
          c hc hw
  obtain ⟨p, hp, hw⟩ := hpre
  constructor
  · -- the head after the white space is a comma or the head of a number
    have heads : ∀ s, (∃ ps, ParamsText ps s) → ∀ c ∈ (skipWs s).head?, c = ',' ∨
        (c = '+' ∨ c = '-' ∨ c = '.' ∨ IsDigit c) := by
      rintro s ⟨ps, h⟩
      have general : ∀ (sep r : List Char), Separators sep →
          (∀ c ∈ r.head?, c = '+' ∨ c = '-' ∨ c = '.' ∨ IsDigit c) →
          ∀ c ∈ (skipWs (sep ++ r)).head?, c = ',' ∨ (c = '+' ∨ c = '-' ∨ c = '.' ∨ IsDigit c) := by
        intro sep r hsep hr
        induction sep with
        | nil =>
          intro c hc
          cases r with
          | nil => simp [skipWs] at hc
          | cons d r =>
            have hd := hr d (by simp)
            have : isWs d = false := (numHead_not_letter hd).1
            simp [skipWs, this] at hc
            subst hc
            exact Or.inr hd
        | cons d sep ih =>
          intro c hc
          by_cases hdw : isWs d = true
          · simp only [skipWs, List.cons_append, List.dropWhile_cons, hdw, if_true] at hc
            exact ih (fun e he => hsep e (by simp [he])) c hc
          · simp only [skipWs, List.cons_append, List.dropWhile_cons, hdw] at hc
            simp at hc
            subst hc
            have := hsep d (by simp)
            rcases this with h | h
            · exact Or.inl h
            · exfalso; apply hdw
              rcases h with rfl | rfl | rfl | rfl <;> decide
      cases h with
      | nil hs => simpa using general s [] hs (by simp)
      | @cons sep n ws u rest ps hsep hn hws hu hst hp =>
        obtain ⟨d, r, rfl, hd⟩ := isNumber_head hn
        exact general sep _ hsep (by simpa using hd)
    intro c hc
    rcases heads s ⟨ps, h⟩ c hc with rfl | hd
    · decide
    · have := numHead_not_letter hd
      exact ⟨by omega, this.2.2.1⟩
  · conv_rhs => rw [hp]
    symm
    apply findAll_skip
    intro c hc r
    exact sep_not_param (chars c (by rw [hp]; simp [hc]) (hw c hc)) r

/-- the parameters that are found in a parameter text -/
theorem params_found {ps : List Param} {s : List Char} (h : ParamsText ps s) :
    findAll matchParam 0 s = ps.map (fun p => p.1 ++ p.2) := by
  induction h with
  | nil hs => exact findAll_none (fun c hc r => sep_not_param (hs c hc) r)
  | @cons sep n ws u rest ps hsep hn hws hu hst hp ih =>
    rw [findAll_skip (fun c hc r => sep_not_param (hsep c hc) r)]
    have hnn : n ≠ [] := by obtain ⟨c, r, rfl, -⟩ := isNumber_head hn; simp
    by_cases hne : u = []
    · subst hne
      obtain ⟨hk, hf⟩ := paramsText_skip hp
      have sk : skipWs (ws ++ ([] ++ rest)) = skipWs rest := by
        unfold skipWs
        rw [List.nil_append, dropWhile_prefix]
        intro c hc
        rcases hws c hc with rfl | rfl | rfl | rfl <;> decide
      have hm : matchParam (n ++ (ws ++ ([] ++ rest))) = some (n, skipWs rest) := by
        simp only [matchParam, matchFloat_of_stops hn hst, sk, findUnit_none hk]
      have hsplit : rest = rest.takeWhile isWs ++ skipWs rest := (takeWhile_append_dropWhile' isWs rest).symm
      have e : n ++ (ws ++ ([] ++ rest)) = (n ++ (ws ++ rest.takeWhile isWs)) ++ skipWs rest := by
        conv_lhs => rw [hsplit]
        simp
      rw [e] at hm ⊢
      rw [findAll_match (by simp [hnn]) hm, hf, ih]
      simp
    · have sk : skipWs (ws ++ (u ++ rest)) = u ++ rest := by
        apply skipWs_spaces hws
        intro c hc
        apply unitTexts_head hu
        cases u with
        | nil => exact absurd rfl hne
        | cons d u => simpa using hc
      have hm : matchParam (n ++ (ws ++ (u ++ rest))) = some (n ++ u, rest) := by
        simp only [matchParam, matchFloat_of_stops hn hst, sk, findUnit_some hu hne]
      have e : n ++ (ws ++ (u ++ rest)) = (n ++ (ws ++ u)) ++ rest := by simp
      rw [e] at hm ⊢
      rw [findAll_match (by simp [hnn]) hm, ih]
      simp

/-! ### functions -/

theorem paramsText_chars {ps : List Param} {s : List Char} (h : ParamsText ps s) :
    ∀ c ∈ s, c ≠ ')' ∧ c.toNat < 128 := by
  have sepc : ∀ c : Char, (c = ',' ∨ c = ' ' ∨ c = '\t' ∨ c = '\n' ∨ c = '\r') → c ≠ ')' ∧ c.toNat < 128 := by
    rintro c (rfl | rfl | rfl | rfl | rfl) <;> decide
  induction h with
  | nil hs => intro c hc; exact sepc c (hs c hc)
  | @cons sep n ws u rest ps hsep hn hws hu hst hp ih =>
    intro c hc
    simp only [List.mem_append] at hc
    rcases hc with hc | hc | hc | hc | hc
    · exact sepc c (hsep c hc)
    · have := isNumber_chars hn c hc
      unfold NumChar at this
      rcases this with rfl | rfl | rfl | rfl | rfl | hd
      iterate 5 decide
      obtain ⟨-, h1, -, h2⟩ := numHead_not_letter (c := c) (by tauto)
      exact ⟨h2, by omega⟩
    · exact sepc c (Or.inr (hws c hc))
    · have : ∀ u ∈ unitTexts, ∀ c ∈ u, c ≠ ')' ∧ c.toNat < 128 := by decide
      exact this u hu c hc
    · exact ih c hc

theorem matchBody_found {ws body rest : List Char} (hws : Spaces ws) (hb : ∀ c ∈ body, c ≠ ')') (hne : body ≠ []) :
    matchBody (ws ++ ('(' :: (body ++ (')' :: rest)))) = some (body, rest) := by
  have h1 : skipWs (ws ++ ('(' :: (body ++ (')' :: rest)))) = '(' :: (body ++ (')' :: rest)) :=
    skipWs_spaces hws (by simp; decide)
  have h2 : (body ++ (')' :: rest)).takeWhile (fun c => decide (c ≠ ')')) = body := by
    rw [takeWhile_prefix (by simpa using hb)]; simp
  have h3 : (body ++ (')' :: rest)).dropWhile (fun c => decide (c ≠ ')')) = ')' :: rest := by
    rw [dropWhile_prefix (by simpa using hb)]; simp
  simp only [matchBody, h1, lit, if_true, h2, h3, if_neg hne]

theorem matchBody_letter {c : Char} {r : List Char} (h : isWs c = false) (h2 : c ≠ '(') : matchBody (c :: r) = none := by
  simp [matchBody, skipWs, h, lit, h2]

theorem matchTemplate_found {name ws body rest : List Char} (hn : name ∈ functionNames) (hws : Spaces ws)
    (hb : ∀ c ∈ body, c ≠ ')') (hne : body ≠ []) :
    matchTemplate (name ++ (ws ++ ('(' :: (body ++ (')' :: rest))))) = some ((name, body), rest) := by
  have hbd := matchBody_found (rest := rest) hws hb hne
  generalize ws ++ ('(' :: (body ++ (')' :: rest))) = w at hbd
  have hx := matchBody_letter (c := 'x') (r := w) (by decide) (by decide)
  have hy := matchBody_letter (c := 'y') (r := w) (by decide) (by decide)
  simp only [functionNames, List.mem_cons, List.not_mem_nil, or_false] at hn
  rcases hn with rfl | rfl | rfl | rfl | rfl | rfl | rfl | rfl | rfl | rfl | rfl <;>
    simp [matchTemplate, names, litWord, lit, List.findSome?, hbd, hx, hy]

theorem sep_not_template {c : Char} (h : c = ',' ∨ c = ' ' ∨ c = '\t' ∨ c = '\n' ∨ c = '\r') (r : List Char) :
    matchTemplate (c :: r) = none := by
  rcases h with rfl | rfl | rfl | rfl | rfl <;> simp [matchTemplate, names, litWord, lit, List.findSome?]

theorem findTemplates {fs : List (List Char × List Param)} {s : List Char} (h : FunctionsText fs s) :
    (findAll matchTemplate 0 s).map (fun nb => (nb.1, findAll matchParam 0 nb.2)) =
      fs.map (fun f => (f.1, f.2.map (fun p => p.1 ++ p.2))) := by
  induction h with
  | nil hs => rw [findAll_none (fun c hc r => sep_not_template (hs c hc) r)]; rfl
  | @cons sep name ws body rest ps fs hsep hname hws hp hne hf ih =>
    rw [findAll_skip (fun c hc r => sep_not_template (hsep c hc) r)]
    have hm := matchTemplate_found (rest := rest) hname hws (fun c hc => (paramsText_chars hp c hc).1) hne
    have e : name ++ (ws ++ ('(' :: (body ++ (')' :: rest)))) = (name ++ (ws ++ ('(' :: (body ++ [')'])))) ++ rest := by
      simp
    rw [e] at hm ⊢
    rw [findAll_match (by simp) hm, List.map_cons, ih, List.map_cons]
    simp [params_found hp]

theorem functionsText_chars {fs : List (List Char × List Param)} {s : List Char} (h : FunctionsText fs s) :
    ∀ c ∈ s, c.toNat < 128 := by
  have sepc : ∀ c : Char, (c = ',' ∨ c = ' ' ∨ c = '\t' ∨ c = '\n' ∨ c = '\r') → c.toNat < 128 := by
    rintro c (rfl | rfl | rfl | rfl | rfl) <;> decide
  induction h with
  | nil hs => intro c hc; exact sepc c (hs c hc)
  | @cons sep name ws body rest ps fs hsep hname hws hp hne hf ih =>
    intro c hc
    simp only [List.mem_append, List.mem_cons] at hc
    rcases hc with hc | hc | hc | rfl | hc | rfl | hc
    · exact sepc c (hsep c hc)
    · have : ∀ u ∈ functionNames, ∀ c ∈ u, c.toNat < 128 := by decide
      exact this name hname c hc
    · exact sepc c (Or.inr (hws c hc))
    · decide
    · exact (paramsText_chars hp c hc).2
    · decide
    · exact ih c hc

theorem lowerChar_ascii {c : Char} (h : c.toLower.toNat < 128) : lowerChar c = [c.toLower] := by
  unfold lowerChar
  by_cases hu : 'A' ≤ c ∧ c ≤ 'Z'
  · have h1 : c.toNat ≥ 65 ∧ c.toNat ≤ 90 := by
      simp only [Char.le_def, UInt32.le_iff_toNat_le] at hu
      exact hu
    have : ∀ n : Fin 26, (Char.ofNat (65 + n.val)).toLower = Char.ofNat (65 + n.val + 32) := by decide
    have h2 := this ⟨c.toNat - 65, by omega⟩
    simp only [show 65 + (c.toNat - 65) = c.toNat by omega, Char.ofNat_toNat] at h2
    rw [if_pos hu, h2]
  · have hc : c.toLower = c := by
      unfold Char.toLower
      split
      · rename_i hh
        exfalso
        apply hu
        simp only [Char.le_def, UInt32.le_iff_toNat_le]
        exact hh
      · rfl
    rw [hc] at h ⊢
    rw [if_neg hu, if_neg (by omega), if_neg (by omega)]

theorem lower_ascii {s t : List Char} (h : s.map Char.toLower = t) (ht : ∀ c ∈ t, c.toNat < 128) :
    s.flatMap lowerChar = t := by
  subst h
  induction s with
  | nil => rfl
  | cons c s ih =>
    rw [List.flatMap_cons, lowerChar_ascii (ht _ (by simp)), ih (fun d hd => ht d (by
      simp only [List.map_cons, List.mem_cons]; exact Or.inr hd))]
    rfl

/-- the functions and parameters that are found in a transform text -/
theorem functions_found {fs : List (List Char × List Param)} {s t : List Char} (h : FunctionsText fs t)
    (hs : s.map Char.toLower = t) :
    functions s = fs.map (fun f => (f.1, f.2.map (fun p => p.1 ++ p.2))) := by
  unfold functions
  rw [lower_ascii hs (functionsText_chars h)]
  exact findTemplates h

end Svgio.Transform
