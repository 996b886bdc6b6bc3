import Verif.Props.Angle

/-!
C23: texts that are not angles.
-/

namespace Svgio.Props

open Svgio.Spec Svgio.Angle

/-- the ASCII characters that may occur in the text of an angle in lower case: in numbers as Python reads them, with white space around
and underscores, or `inf`, `infinity` and `nan`, and in units -/
def angleChars : List Char :=
  "0123456789+-._".toList ++ "einftyna".toList ++ " \t\n\r\x0b\x0c\x1c\x1d\x1e\x1f".toList ++ "degradturn%".toList

theorem number_chars {t : List Char} (h : IsNumber t) (c : Char) (hc : c ∈ t) :
    IsDigit c ∨ c = '+' ∨ c = '-' ∨ c = '.' ∨ c = 'e' ∨ c = 'E' := by
  obtain ⟨sg, m, ex, rfl, hsg, ⟨ip, fp, rfl, hip, hf⟩, hex⟩ := h
  have sign : ∀ s, OptSign s → ∀ c ∈ s, c = '+' ∨ c = '-' := by
    rintro s (rfl | rfl | rfl) c hc <;> simp at hc <;> simp [hc]
  simp only [List.mem_append] at hc
  rcases hc with hc | (hc | hc) | hc
  · rcases sign _ hsg c hc with h | h <;> simp [h]
  · exact .inl (hip c hc)
  · rcases hf with ⟨rfl, -⟩ | ⟨ds, rfl, -, hds⟩
    · simp at hc
    · rcases List.mem_cons.1 hc with rfl | hc
      · simp
      · exact .inl (hds c hc)
  · rcases hex with rfl | ⟨e, sg', ds, he, rfl, hsg', -, hds⟩
    · simp at hc
    · rcases List.mem_cons.1 hc with rfl | hc
      · rcases he with h | h <;> simp [h]
      · rcases List.mem_append.1 hc with hc | hc
        · rcases sign _ hsg' c hc with h | h <;> simp [h]
        · exact .inl (hds c hc)

theorem digit_mem : ∀ {c : Char}, IsDigit c → c ∈ angleChars := by
  intro c hc
  have : ∀ n : Fin 128, (48 ≤ n.1 ∧ n.1 ≤ 57) → Char.ofNat n.1 ∈ angleChars := by decide +kernel
  have h1 : 48 ≤ c.toNat := hc.1
  have h2 : c.toNat ≤ 57 := hc.2
  have := this ⟨c.toNat, by omega⟩ ⟨h1, h2⟩
  rwa [Char.ofNat_toNat] at this

theorem floatOf_bad {t : List Char} {c : Char} (hc : c ∈ t) (hm : c ∉ angleChars) (hE : c ≠ 'E') : floatOf t = .error .valueError := by
  unfold floatOf
  cases h : matchFloat t with
  | none => rfl
  | some p =>
    obtain ⟨p, r⟩ := p
    cases r with
    | cons _ _ => rfl
    | nil =>
      obtain ⟨h1, h2⟩ := matchFloat_sound h
      rw [List.append_nil] at h1
      subst h1
      exfalso
      rcases number_chars h2 c hc with h | rfl | rfl | rfl | rfl | rfl
      · exact hm (digit_mem h)
      · exact hm (by decide +kernel)
      · exact hm (by decide +kernel)
      · exact hm (by decide +kernel)
      · exact hm (by decide +kernel)
      · exact hE rfl

theorem mem_before {u s t : List Char} {c : Char} (h : beforeSuffix u s = some t) (hc : c ∈ s) (hu : c ∉ u) : c ∈ t := by
  unfold beforeSuffix at h
  split_ifs at h with hs
  obtain ⟨r, rfl⟩ := hs
  simp only [List.length_append, Nat.add_sub_cancel, List.take_left', Option.some.injEq] at h
  subst h
  rcases List.mem_append.1 hc with h | h
  · simpa using h
  · exact absurd h hu

section
variable {K : Type} [Field K] [LinearOrder K] [FloorRing K] (tau : K)

/-- **C23**, texts that are not angles: `Angle.parse` of a text with an ASCII character that is in no number and no unit raises ValueError.
Partial: other texts that are not angles, such as `1-2`, are left out. -/
theorem C23_refuse_partial (s : List Char) (c : Char) (hc : c ∈ s) (ha : c.toNat < 128) (hm : c.toLower ∉ angleChars) :
    parse tau s = .error .valueError := by
  have hl : c.toLower ∈ s.flatMap Color.lowerChar := by
    refine List.mem_flatMap.2 ⟨c, hc, ?_⟩
    have : ∀ n : Fin 128, Color.lowerChar (Char.ofNat n.1) = [(Char.ofNat n.1).toLower] := by decide +kernel
    have := this ⟨c.toNat, ha⟩
    simp only [Char.ofNat_toNat] at this
    rw [this]
    simp
  have hE : c.toLower ≠ 'E' := by
    have : ∀ n : Fin 128, (Char.ofNat n.1).toLower ≠ 'E' := by decide +kernel
    have := this ⟨c.toNat, ha⟩
    simpa only [Char.ofNat_toNat] using this
  have hu : ∀ u : List Char, (∀ x ∈ u, x ∈ angleChars) → c.toLower ∉ u := fun u h hx => hm (h _ hx)
  generalize c.toLower = b at *
  have key : ∀ (u t : List Char), (∀ x ∈ u, x ∈ angleChars) → beforeSuffix u (s.flatMap Color.lowerChar) = some t → floatOf t = .error .valueError :=
    fun u t h1 h2 => floatOf_bad (mem_before h2 hl (hu u h1)) hm hE
  have last := floatOf_bad hl hm hE
  unfold parse
  generalize s.flatMap Color.lowerChar = w at *
  simp only
  cases e1 : beforeSuffix ['d', 'e', 'g'] w with
  | some t => simp only [key _ t (by decide +kernel) e1]; rfl
  | none =>
  cases e2 : beforeSuffix ['g', 'r', 'a', 'd'] w with
  | some t => simp only [key _ t (by decide +kernel) e2]; rfl
  | none =>
  cases e3 : beforeSuffix ['r', 'a', 'd'] w with
  | some t => simp only [key _ t (by decide +kernel) e3]; rfl
  | none =>
  cases e4 : beforeSuffix ['t', 'u', 'r', 'n'] w with
  | some t => simp only [key _ t (by decide +kernel) e4]; rfl
  | none =>
  cases e5 : beforeSuffix ['%'] w with
  | some t => simp only [key _ t (by decide +kernel) e5]; rfl
  | none => simp only [last]; rfl

end

/-- `12px` is not an angle -/
example : 'p' ∈ "12px".toList ∧ ('p').toNat < 128 ∧ ('p').toLower ∉ angleChars := by decide +kernel

end Svgio.Props
