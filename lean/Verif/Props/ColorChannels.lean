import Verif.Lemmas.Color

/-! C01, C02, C03, C07, C08: packed colour values. -/

namespace Svgio.Props
open Svgio.Spec

/-! ### C01 -/

/-- **C01.** Assigning `x` to a channel of a colour succeeds, the channel then reads
`x` clamped to 0..255 and truncated, the other channels read as before, and a second
reading of the packed value shows no change above the 32 colour bits. -/
theorem C01_channel_set_get (v : ℤ) (ch : Chan) (x : ℚ) :
    ∃ w, ch.set (some v) x = .ok (some w) ∧
      ch.get (some w) = some (clamp255 x) ∧
      (∀ ch', ch' ≠ ch → ch'.get (some w) = ch'.get (some v)) ∧
      w / 2 ^ 32 = v / 2 ^ 32 := by
  obtain ⟨w, hw, hb⟩ := set_some ch v x
  refine ⟨w, hw, ?_, ?_, ?_⟩
  · rw [get_eq_byte, ← byte_clamp x]
    congr 1
    apply byte_ext
    intro k hk
    rw [hb, if_pos (by omega)]
    congr 1
    omega
  · intro ch' hne
    rw [get_eq_byte, get_eq_byte]
    congr 1
    apply byte_ext
    intro k hk
    rw [hb, if_neg]
    have : ch'.pos ≠ ch.pos := by
      intro h
      apply hne
      cases ch <;> cases ch' <;> simp_all [Chan.pos]
    omega
  · apply int_ext
    intro k
    rw [show (2:ℤ) ^ 32 = ((2 ^ 32 : ℕ) : ℤ) by norm_num, ← Int.shiftRight_eq_div_pow,
      ← Int.shiftRight_eq_div_pow, tb_shr, tb_shr, hb, if_neg]
    cases ch <;> simp only [Chan.pos] <;> omega

/-- **C01.** On a colour without a value every assignment raises ValueError and every
channel reads None. -/
theorem C01_channel_none (ch : Chan) (x : ℚ) :
    ch.set none x = .error .valueError ∧ ch.get none = none :=
  ⟨set_none ch x, get_none ch⟩

example : Chan.set .green (some 0x12345678) 300.7 = .ok (some 0x12FF5678) := by decide +kernel
example : Chan.get .green (some 0x12FF5678) = some 255 := by decide +kernel

/-! ### C02 -/

/-- **C02.** `Color(r, g, b)`: opaque, channels clamped, packed value in range. -/
theorem C02_rgb (F : FloatRounding) (r g b : ℤ) :
    ∃ w, Color.mk3 F r g b = some w ∧ 0 ≤ w ∧ w < 2 ^ 32 ∧
      Color.red (some w) = some (clampI r) ∧ Color.green (some w) = some (clampI g) ∧
      Color.blue (some w) = some (clampI b) ∧ Color.alpha (some w) = some 255 := by
  obtain ⟨a, ha0, ha1, hae, hv⟩ := rgbToInt_val F r g b 1
  have e : (if (if (1:ℚ) > 1 then 1 else 1) < (0:ℚ) then (0:ℚ) else (if (1:ℚ) > 1 then 1 else 1)) = 1 := by
    norm_num
  rw [e, round_one] at hae
  have ha : a = 255 := hae
  subst ha
  simp only [clamp255_int] at hv
  have hr := clampI_range r
  have hg := clampI_range g
  have hb := clampI_range b
  obtain ⟨p3, p2, p1, p0⟩ := pack_get hr hg hb (a := 255) (by norm_num)
  refine ⟨_, rfl, ?_, ?_, ?_, ?_, ?_, ?_⟩
  · rw [hv]; omega
  · rw [hv]; omega
  · have := get_eq_byte .red (Color.rgbToInt F r g b 1); rw [hv, Chan.pos, p3] at this; rw [hv]; exact this
  · have := get_eq_byte .green (Color.rgbToInt F r g b 1); rw [hv, Chan.pos, p2] at this; rw [hv]; exact this
  · have := get_eq_byte .blue (Color.rgbToInt F r g b 1); rw [hv, Chan.pos, p1] at this; rw [hv]; exact this
  · have := get_eq_byte .alpha (Color.rgbToInt F r g b 1); rw [hv, Chan.pos, p0] at this; rw [hv]; exact this

theorem fl_range (F : FloatRounding) (a : ℤ) (h : a < 0 ∨ 255 < a) :
    pyRound (F.fl ((if (if F.fl (a / 255) > 1 then 1 else F.fl (a / 255)) < 0 then 0
      else (if F.fl (a / 255) > 1 then 1 else F.fl (a / 255))) * 255)) = clampI a := by
  have he := F.err ((a:ℚ) / 255)
  have ht := tiny
  rw [abs_le] at he
  rcases h with h | h
  · have h0 : (a:ℚ) ≤ -1 := by exact_mod_cast (by omega : a ≤ -1)
    have h2 : F.fl ((a:ℚ) / 255) < 0 := by
      rw [abs_of_nonpos (by linarith)] at he
      linarith
    have h3 : ¬ F.fl ((a:ℚ) / 255) > 1 := by linarith
    rw [if_neg h3, if_pos h2, round_zero]
    unfold clampI; omega
  · have h0 : (256:ℚ) ≤ a := by exact_mod_cast (by omega : 256 ≤ a)
    have h2 : F.fl ((a:ℚ) / 255) > 1 := by
      rw [abs_of_nonneg (by linarith)] at he
      linarith
    rw [if_pos h2, if_neg (by norm_num), round_one]
    unfold clampI; omega

/-- **C02.** `Color(r, g, b, a)` : all four channels are the clamped arguments, whatever the
rounding of the two float operations on alpha. -/
theorem C02_rgba (F : FloatRounding) (r g b a : ℤ) :
    ∃ w, Color.mk4 F r g b a = some w ∧ 0 ≤ w ∧ w < 2 ^ 32 ∧
      Color.red (some w) = some (clampI r) ∧ Color.green (some w) = some (clampI g) ∧
      Color.blue (some w) = some (clampI b) ∧ Color.alpha (some w) = some (clampI a) := by
  obtain ⟨a', ha0, ha1, hae, hv⟩ := rgbToInt_val F r g b (F.fl (a / 255))
  have ha : a' = clampI a := by
    rw [hae]
    by_cases h : a < 0 ∨ 255 < a
    · rw [fl_range F a h]; unfold clampI; omega
    · have h0 : 0 ≤ a := by omega
      have h1 : a ≤ 255 := by omega
      have rt := round_trip F h0 h1
      have : clampI a = a := by unfold clampI; omega
      rw [this]
      by_cases hg : F.fl ((a:ℚ) / 255) > 1
      · -- only possible for a = 255
        have q0 : (0:ℚ) ≤ a := by exact_mod_cast h0
        have ha1 : |(a:ℚ) / 255| ≤ 1 := by
          rw [abs_of_nonneg (by positivity)]
          have : (a:ℚ) ≤ 255 := by exact_mod_cast h1
          linarith
        have e1 := fl_near F ha1
        rw [abs_le] at e1
        have : (254:ℚ) < a := by linarith
        have : 254 < a := by exact_mod_cast this
        have : a = 255 := by omega
        subst this
        rw [if_pos hg, if_neg (by norm_num), round_one]
        rfl
      · rw [if_neg hg]
        by_cases hl : F.fl ((a:ℚ) / 255) < 0
        · have q0 : (0:ℚ) ≤ a := by exact_mod_cast h0
          have ha1 : |(a:ℚ) / 255| ≤ 1 := by
            rw [abs_of_nonneg (by positivity)]
            have : (a:ℚ) ≤ 255 := by exact_mod_cast h1
            linarith
          have e1 := fl_near F ha1
          rw [abs_le] at e1
          have : (a:ℚ) < 1 := by linarith
          have : a < 1 := by exact_mod_cast this
          have : a = 0 := by omega
          subst this
          rw [if_pos hl, round_zero]
          rfl
        · rw [if_neg hl, rt]
          unfold clampI; omega
  subst ha
  simp only [clamp255_int] at hv
  have hr := clampI_range r
  have hg := clampI_range g
  have hb := clampI_range b
  have haa := clampI_range a
  obtain ⟨p3, p2, p1, p0⟩ := pack_get hr hg hb haa
  have G := fun ch => get_eq_byte ch (Color.rgbToInt F r g b (F.fl (a / 255)))
  refine ⟨_, rfl, ?_, ?_, ?_, ?_, ?_, ?_⟩
  · rw [hv]; omega
  · rw [hv]; omega
  · have := G .red; rw [hv, Chan.pos, p3] at this; rw [hv]; exact this
  · have := G .green; rw [hv, Chan.pos, p2] at this; rw [hv]; exact this
  · have := G .blue; rw [hv, Chan.pos, p1] at this; rw [hv]; exact this
  · have := G .alpha; rw [hv, Chan.pos, p0] at this; rw [hv]; exact this

example : Color.mk4 FloatRounding.id 300 (-5) 17 128 = some 0xFF001180 := by decide +kernel

/-! ### C03 -/

/-- **C03.** Writing `argb` and reading it back gives the written value modulo `2^32`, and the
four channels are the bytes of the written value in the order A, R, G, B. -/
theorem C03_argb (x : ℤ) :
    Color.argb (Color.setArgb x) = some (x % 2 ^ 32) ∧
    Color.alpha (Color.setArgb x) = some (byte 3 x) ∧
    Color.red (Color.setArgb x) = some (byte 2 x) ∧
    Color.green (Color.setArgb x) = some (byte 1 x) ∧
    Color.blue (Color.setArgb x) = some (byte 0 x) := by
  have tb : ∀ k, Int.testBit (Int.lor (Int.land (x <<< (8:ℕ)) 0xFFFFFF00) (Int.land (x >>> (24:ℕ)) 0xFF)) k
      = if k < 8 then Int.testBit x (24 + k) else if k < 32 then Int.testBit x (k - 8) else false := by
    intro k
    simp only [tb_lor, tb_land, tb_shl, tb_shr, tb_FFFFFF00, tb_255]
    by_cases h1 : k < 8
    · simp [h1, show ¬ 8 ≤ k by omega]
    · by_cases h2 : k < 32 <;> simp [h1, h2, show 8 ≤ k by omega]
  refine ⟨?_, ?_, ?_, ?_, ?_⟩
  · unfold Color.argb Color.setArgb
    simp only [Option.some.injEq]
    apply int_ext
    intro k
    rw [tb_emod]
    simp only [tb_lor, tb_land, tb_shl, tb_shr, tb_24, tb_255, tb_FFFFFF00]
    by_cases h2 : k < 24
    · simp [h2, show ¬ 24 ≤ k by omega, show k < 32 by omega, show ¬ 8 + k < 8 by omega,
        show 8 + k < 32 by omega]
    · by_cases h3 : k < 32
      · simp [h2, h3, show 24 ≤ k by omega, show k - 24 < 8 by omega, show ¬ 8 ≤ k - 24 by omega,
          show 24 + (k - 24) = k by omega]
      · simp [h2, h3, show ¬ k - 24 < 8 by omega]
  all_goals unfold Color.setArgb
  · rw [show Color.alpha = Chan.alpha.get from rfl, get_eq_byte]; congr 1
    apply byte_ext; intro k hk; rw [tb]; simp [Chan.pos, hk]
  · rw [show Color.red = Chan.red.get from rfl, get_eq_byte]; congr 1
    apply byte_ext; intro k hk; rw [tb, Chan.pos, if_neg (by omega), if_pos (by omega)]; congr 1; omega
  · rw [show Color.green = Chan.green.get from rfl, get_eq_byte]; congr 1
    apply byte_ext; intro k hk; rw [tb, Chan.pos, if_neg (by omega), if_pos (by omega)]; congr 1; omega
  · rw [show Color.blue = Chan.blue.get from rfl, get_eq_byte]; congr 1
    apply byte_ext; intro k hk; rw [tb, Chan.pos, if_neg (by omega), if_pos (by omega)]; congr 1; omega

/-- **C03.** Writing `rgb` (also `Color(int)`) gives an opaque colour whose `rgb` and whose
channels are those of the written number. -/
theorem C03_rgb (x : ℤ) :
    Color.rgb (Color.setRgb x) = some x ∧ Color.alpha (Color.setRgb x) = some 255 ∧
    Color.red (Color.setRgb x) = some (byte 2 x) ∧ Color.green (Color.setRgb x) = some (byte 1 x) ∧
    Color.blue (Color.setRgb x) = some (byte 0 x) ∧ Color.mkInt x = Color.setRgb x := by
  have tb : ∀ k, Int.testBit (Int.lor (x <<< (8:ℕ)) 0xFF) k
      = if k < 8 then true else Int.testBit x (k - 8) := by
    intro k
    simp only [tb_lor, tb_shl, tb_255]
    by_cases h1 : k < 8
    · simp [h1]
    · simp [h1, show 8 ≤ k by omega]
  refine ⟨?_, ?_, ?_, ?_, ?_, rfl⟩
  · unfold Color.rgb Color.setRgb
    simp only [Option.some.injEq]
    apply int_ext
    intro k
    rw [tb_shr, tb, if_neg (by omega)]
    congr 1
    omega
  all_goals unfold Color.setRgb
  · rw [show Color.alpha = Chan.alpha.get from rfl, get_eq_byte]; congr 1
    refine Eq.trans ?_ (show byte 0 255 = 255 by decide +kernel)
    apply byte_ext; intro k hk; rw [tb, tb_255]; simp [Chan.pos, hk]
  · rw [show Color.red = Chan.red.get from rfl, get_eq_byte]; congr 1
    apply byte_ext; intro k hk; rw [tb, Chan.pos, if_neg (by omega)]; congr 1; omega
  · rw [show Color.green = Chan.green.get from rfl, get_eq_byte]; congr 1
    apply byte_ext; intro k hk; rw [tb, Chan.pos, if_neg (by omega)]; congr 1; omega
  · rw [show Color.blue = Chan.blue.get from rfl, get_eq_byte]; congr 1
    apply byte_ext; intro k hk; rw [tb, Chan.pos, if_neg (by omega)]; congr 1; omega

/-- **C03.** Writing `rgba` makes the four channels the bytes R, G, B, A of the number. -/
theorem C03_rgba (x : ℤ) :
    Color.rgba (Color.setRgba x) = some x ∧
    Color.red (Color.setRgba x) = some (byte 3 x) ∧ Color.green (Color.setRgba x) = some (byte 2 x) ∧
    Color.blue (Color.setRgba x) = some (byte 1 x) ∧ Color.alpha (Color.setRgba x) = some (byte 0 x) :=
  ⟨rfl, get_eq_byte .red x, get_eq_byte .green x, get_eq_byte .blue x, get_eq_byte .alpha x⟩

example : Color.argb (Color.setArgb (-1)) = some 0xFFFFFFFF := by decide +kernel

/-! ### C07 -/

/-- Two packed values denote the same 32-bit colour. -/
def sameColor : Option ℤ → Option ℤ → Prop
  | none, none => True
  | some a, some b => ∀ ch : Chan, ch.get (some a) = ch.get (some b)
  | _, _ => False

/-- **C07.** `==` says exactly "all four channels agree, or both have no value". -/
theorem C07_eq_iff (c d : Option ℤ) : Color.eq c d = true ↔ sameColor c d := by
  cases c with
  | none => cases d <;> simp [Color.eq, sameColor]
  | some a =>
    cases d with
    | none => simp [Color.eq, sameColor]
    | some b =>
      simp only [Color.eq, sameColor, decide_eq_true_eq, land_32]
      constructor
      · intro h ch
        rw [get_eq_byte, get_eq_byte]
        congr 1
        have hc : ch.pos ≤ 3 := by cases ch <;> simp [Chan.pos]
        apply byte_ext
        intro k hk
        have h1 := tb_emod a 32 (8 * ch.pos + k)
        have h2 := tb_emod b 32 (8 * ch.pos + k)
        rw [h, h2] at h1
        simpa [show 8 * ch.pos + k < 32 by omega] using h1.symm
      · intro h
        have h3 := h .red
        have h2 := h .green
        have h1 := h .blue
        have h0 := h .alpha
        rw [get_eq_byte, get_eq_byte] at h3 h2 h1 h0
        simp only [Option.some.injEq, byte, Chan.pos] at h3 h2 h1 h0
        norm_num at h3 h2 h1 h0 ⊢
        omega

/-- **C07.** `==` is an equivalence relation and `!=` is its negation. -/
theorem C07_equivalence :
    (∀ c, Color.eq c c = true) ∧ (∀ c d, Color.eq c d = Color.eq d c) ∧
    (∀ c d e, Color.eq c d = true → Color.eq d e = true → Color.eq c e = true) ∧
    (∀ c d, Color.ne c d = true ↔ ¬ (Color.eq c d = true)) := by
  refine ⟨?_, ?_, ?_, ?_⟩
  · intro c; cases c <;> simp [Color.eq]
  · intro c d; cases c <;> cases d <;> simp [Color.eq, eq_comm]
  · intro c d e h1 h2
    cases c <;> cases d <;> cases e <;> simp_all [Color.eq]
  · intro c d; simp [Color.ne]

/-- **C07.** Values that agree modulo `2^32` are equal colours. -/
theorem C07_low_bits (a k : ℤ) : Color.eq (some a) (some (a + k * 2 ^ 32)) = true := by
  simp only [Color.eq, decide_eq_true_eq, land_32]
  omega

example : Color.eq (some (-1)) (some 0xFFFFFFFF) = true := by decide +kernel
example : Color.eq (some 0x1FF) (some 0xFF) = false := by decide +kernel

/-! ### C08 -/

/-- **C08.** Writing back the opacity that was read leaves the colour unchanged, whatever
the float rounding. -/
theorem C08_opacity_write_back (F : FloatRounding) (v : ℤ) :
    ∃ o, Color.opacity F (some v) = some o ∧ Color.setOpacity F (some v) o = .ok (some v) := by
  refine ⟨_, rfl, ?_⟩
  have hr : 0 ≤ Int.land v 0xFF ∧ Int.land v 0xFF ≤ 255 := by
    rw [land_255]
    omega
  unfold Color.setOpacity
  rw [round_trip F hr.1 hr.2]
  unfold Color.setAlpha
  simp only [crimp_byte hr.1 hr.2]
  congr 2
  apply int_ext
  intro k
  simp only [tb_lor, tb_land, tb_not, tb_255]
  by_cases h : k < 8 <;> simp [h]

/-- **C08.** Setting the opacity to `x` makes alpha the nearest integer to `255 x`
(within one half plus the float error of the product), clamped to 0..255, leaves the
colour channels alone. -/
theorem C08_opacity_set (F : FloatRounding) (v : ℤ) (x : ℚ) :
    ∃ w n, Color.setOpacity F (some v) x = .ok (some w) ∧
      Color.alpha (some w) = some (clampI n) ∧
      |(n : ℚ) - 255 * x| ≤ 1 / 2 + (|255 * x| / 2 ^ 53 + 1 / 2 ^ 1074) ∧
      Color.red (some w) = Color.red (some v) ∧ Color.green (some w) = Color.green (some v) ∧
      Color.blue (some w) = Color.blue (some v) := by
  obtain ⟨w, hw, hg, ho, -⟩ := C01_channel_set_get v .alpha
    (Color.crimp (pyRound (F.fl (x * 255))))
  refine ⟨w, pyRound (F.fl (x * 255)), hw, ?_, ?_, ho .red (by decide), ho .green (by decide), ho .blue (by decide)⟩
  · rw [show Color.alpha = Chan.alpha.get from rfl, hg, clamp255_int]
    congr 1
    rw [crimp_intCast]
    unfold clampI
    omega
  · have h1 := pyRound_err (F.fl (x * 255))
    have h2 := F.err (x * 255)
    rw [mul_comm 255 x]
    calc |(pyRound (F.fl (x * 255)) : ℚ) - x * 255|
        = |((pyRound (F.fl (x * 255)) : ℚ) - F.fl (x * 255)) + (F.fl (x * 255) - x * 255)| := by ring_nf
      _ ≤ _ := le_trans (abs_add_le _ _) (add_le_add h1 h2)

/-- **C08.** No value: opacity reads None and assigning raises ValueError. -/
theorem C08_opacity_none (F : FloatRounding) (x : ℚ) :
    Color.opacity F none = none ∧ Color.setOpacity F none x = .error .valueError := ⟨rfl, rfl⟩

example : Color.setOpacity FloatRounding.id (some 0x11223344) (1/2) = .ok (some 0x11223380) := by
  decide +kernel

end Svgio.Props
