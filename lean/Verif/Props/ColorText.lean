import Verif.Lemmas.Color
import Verif.Lemmas.ListAux
import Verif.Model.ColorParse
import Verif.Spec.CssColors

/-! C04, C05, C06: colours as text. -/

namespace Svgio.Props
open Svgio.Spec

/-- hex digits of either case -/
def hexDigits : List Char := "0123456789abcdefABCDEF".toList

/-- the value of a hex digit: its index in 0..f, ignoring case -/
def nib (c : Char) : ℤ := ("0123456789abcdef".toList.idxOf c.toLower : ℕ)

/-- What CSS says a string of hex digits denotes, as 0xRRGGBBAA. -/
def cssHex : List Char → Option ℤ
  | [r, g, b] => some ((nib r * 17) * 2 ^ 24 + (nib g * 17) * 2 ^ 16 + (nib b * 17) * 2 ^ 8 + 255)
  | [r, g, b, a] =>
    some ((nib r * 17) * 2 ^ 24 + (nib g * 17) * 2 ^ 16 + (nib b * 17) * 2 ^ 8 + nib a * 17)
  | [r, r', g, g', b, b'] =>
    some ((nib r * 16 + nib r') * 2 ^ 24 + (nib g * 16 + nib g') * 2 ^ 16
      + (nib b * 16 + nib b') * 2 ^ 8 + 255)
  | [r, r', g, g', b, b', a, a'] =>
    some ((nib r * 16 + nib r') * 2 ^ 24 + (nib g * 16 + nib g') * 2 ^ 16
      + (nib b * 16 + nib b') * 2 ^ 8 + (nib a * 16 + nib a'))
  | _ => none

theorem isHex_iff (c : Char) : Color.isHex c = true ↔ c ∈ hexDigits := by
  constructor
  · intro h
    simp only [Color.isHex, Bool.or_eq_true, Bool.and_eq_true, decide_eq_true_eq, Char.le_def,
      UInt32.le_iff_toNat_le] at h
    have hc : ∀ n : ℕ, c.val.toNat = n → c = Char.ofNat n := by
      intro n hn
      rw [← hn]
      exact (Char.ofNat_toNat c).symm
    have h0 : ('0').val.toNat = 48 := rfl
    have h9 : ('9').val.toNat = 57 := rfl
    have ha : ('a').val.toNat = 97 := rfl
    have hf : ('f').val.toNat = 102 := rfl
    have hA : ('A').val.toNat = 65 := rfl
    have hF : ('F').val.toNat = 70 := rfl
    rw [h0, h9, ha, hf, hA, hF] at h
    have : c.val.toNat ∈ [48,49,50,51,52,53,54,55,56,57,97,98,99,100,101,102,65,66,67,68,69,70] := by
      simp only [List.mem_cons, List.not_mem_nil, or_false]
      omega
    simp only [List.mem_cons, List.not_mem_nil, or_false] at this
    rcases this with h | h | h | h | h | h | h | h | h | h | h | h | h | h | h | h | h | h | h | h | h | h <;>
      rw [hc _ h] <;> decide
  · intro h
    have : ∀ d ∈ hexDigits, Color.isHex d = true := by decide
    exact this c h

theorem nib_eq {c : Char} (h : Color.isHex c = true) : (Color.hexVal c : ℤ) = nib c := by
  have : ∀ d ∈ hexDigits, (Color.hexVal d : ℤ) = nib d := by decide
  exact this c ((isHex_iff c).mp h)

theorem not_nl {c : Char} (h : Color.isHex c = true) : (c = '\n') = False := by
  have : ∀ d ∈ hexDigits, d ≠ '\n' := by decide
  exact eq_false (this c ((isHex_iff c).mp h))

theorem not_hash {c : Char} (h : Color.isHex c = true) : (c = '#') = False := by
  have : ∀ d ∈ hexDigits, d ≠ '#' := by decide
  exact eq_false (this c ((isHex_iff c).mp h))

theorem stripNl_hex {ds : List Char} (h : ∀ c ∈ ds, Color.isHex c = true) : Color.stripNl ds = ds := by
  have h1 : ∀ c ∈ ds, decide (c = '\n') = false := by
    intro c hc; simp [not_nl (h c hc)]
  unfold Color.stripNl
  rw [dropWhile_none h1, dropWhile_none (by simpa using h1), List.reverse_reverse]

theorem int16_hex {ds : List Char} (h : ∀ c ∈ ds, Color.isHex c = true) (hne : ds ≠ []) :
    Color.int16 ds = .ok ((ds.foldl (fun (n : ℕ) c => 16 * n + Color.hexVal c) 0 : ℕ) : ℤ) := by
  unfold Color.int16
  rw [stripNl_hex h]
  have : ds.all Color.isHex = true := by simpa using h
  simp [hne, this]

theorem matchHex_hex (hash : Bool) {ds : List Char} (h : ∀ c ∈ ds, Color.isHex c = true)
    (h3 : 3 ≤ ds.length) (h8 : ds.length ≤ 8) :
    Color.matchHex ((if hash then ['#'] else []) ++ ds) = true := by
  have ht : ds.takeWhile Color.isHex = ds := takeWhile_all h
  have hd : ds.dropWhile Color.isHex = [] := dropWhile_all h
  cases hash
  · cases ds with
    | nil => simp at h3
    | cons c cs =>
      have hc := not_hash (h c (by simp))
      simp only [Bool.false_eq_true, if_false, List.nil_append, Color.matchHex, Color.optHash, hc, ht, hd]
      simp_all
  · simp only [if_true, List.cons_append, List.nil_append, Color.matchHex, Color.optHash, ht, hd]
    simp_all

theorem parse_hex (F : FloatRounding) (pyInt : List Char → Option ℤ) (hash : Bool) {ds : List Char}
    (h : ∀ c ∈ ds, Color.isHex c = true) (h3 : 3 ≤ ds.length) (h8 : ds.length ≤ 8) :
    Color.parse F pyInt (some ((if hash then ['#'] else []) ++ ds)) =
      (Color.parseHex F ds).map some := by
  have hm := matchHex_hex hash h h3 h8
  have hn : (if hash then ['#'] else []) ++ ds ≠ "none".toList := by
    intro e
    have : Color.isHex 'n' = true := by
      cases hash
      · exact h 'n' (by rw [show ds = "none".toList by simpa using e]; decide)
      · simp at e
    exact absurd this (by decide)
  have hd : ((if hash then ['#'] else []) ++ ds).dropWhile (· = '#') = ds.dropWhile (· = '#') := by
    cases hash <;> simp
  unfold Color.parse
  simp only [if_neg hn, hm, if_true]
  congr 1
  unfold Color.parseHex
  simp only [hd]

/-- **C05.** Text of 3..8 hex digits with or without `#` is read as CSS says; where CSS assigns no
colour (5 or 7 digits) the result is opaque black. -/
theorem C05_hex_text (F : FloatRounding) (pyInt : List Char → Option ℤ) (hash : Bool) (ds : List Char)
    (h : ∀ c ∈ ds, c ∈ hexDigits) (h3 : 3 ≤ ds.length) (h8 : ds.length ≤ 8) :
    Color.parse F pyInt (some ((if hash then ['#'] else []) ++ ds)) =
      .ok (some ((cssHex ds).getD 0x000000FF)) := by
  have h' : ∀ c ∈ ds, Color.isHex c = true := fun c hc => (isHex_iff c).mpr (h c hc)
  rw [parse_hex F pyInt hash h' h3 h8]
  have hs : ds.dropWhile (· = '#') = ds := dropWhile_none (by
    intro c hc; simp [not_hash (h' c hc)])
  have hblack : Color.rgbToInt F 0 0 0 1 = 0x000000FF := by
    obtain ⟨a, -, -, ha, hv⟩ := rgbToInt_val F 0 0 0 1
    have e : (if (if (1:ℚ) > 1 then 1 else 1) < (0:ℚ) then (0:ℚ) else (if (1:ℚ) > 1 then 1 else 1)) = 1 := by
      norm_num
    rw [e, round_one] at ha
    rw [hv, ha]
    decide +kernel
  have hF : Color.isHex 'F' = true := by decide
  have hFv : Color.hexVal 'F' = 15 := by decide
  unfold Color.parseHex
  rw [hs]
  match ds, h3, h8, h' with
  | [a, b, c], _, _, h' =>
    simp only [List.mem_cons, List.not_mem_nil, or_false, forall_eq_or_imp, forall_eq] at h'
    obtain ⟨ha, hb, hc⟩ := h'
    have n := int16_hex (ds := [a, a, b, b, c, c, 'F', 'F']) (by simp [ha, hb, hc, hF]) (by simp)
    simp [n, Except.map, List.foldl, cssHex, hFv, ← nib_eq ha, ← nib_eq hb, ← nib_eq hc]
    ring
  | [a, b, c, d], _, _, h' =>
    simp only [List.mem_cons, List.not_mem_nil, or_false, forall_eq_or_imp, forall_eq] at h'
    obtain ⟨ha, hb, hc, hd⟩ := h'
    have n := int16_hex (ds := [a, a, b, b, c, c, d, d]) (by simp [ha, hb, hc, hd]) (by simp)
    simp [n, Except.map, List.foldl, cssHex, ← nib_eq ha, ← nib_eq hb, ← nib_eq hc, ← nib_eq hd]
    ring
  | [a, b, c, d, e], _, _, h' => simp [Except.map, hblack, cssHex]
  | [a, b, c, d, e, f], _, _, h' =>
    simp only [List.mem_cons, List.not_mem_nil, or_false, forall_eq_or_imp, forall_eq] at h'
    obtain ⟨ha, hb, hc, hd, he, hf⟩ := h'
    have n := int16_hex (ds := [a, b, c, d, e, f, 'F', 'F']) (by simp [ha, hb, hc, hd, he, hf, hF]) (by simp)
    simp [n, Except.map, List.foldl, cssHex, hFv, ← nib_eq ha, ← nib_eq hb, ← nib_eq hc, ← nib_eq hd,
      ← nib_eq he, ← nib_eq hf]
    ring
  | [a, b, c, d, e, f, g], _, _, h' => simp [Except.map, hblack, cssHex]
  | [a, b, c, d, e, f, g, i], _, _, h' =>
    simp only [List.mem_cons, List.not_mem_nil, or_false, forall_eq_or_imp, forall_eq] at h'
    obtain ⟨ha, hb, hc, hd, he, hf, hg, hi⟩ := h'
    have n := int16_hex (ds := [a, b, c, d, e, f, g, i]) (by simp [ha, hb, hc, hd, he, hf, hg, hi]) (by simp)
    simp [n, Except.map, List.foldl, cssHex, ← nib_eq ha, ← nib_eq hb, ← nib_eq hc, ← nib_eq hd,
      ← nib_eq he, ← nib_eq hf, ← nib_eq hg, ← nib_eq hi]
    ring

/-- **C05.** Upper and lower case hex digits give the same colour. -/
theorem C05_case (F : FloatRounding) (pyInt : List Char → Option ℤ) (hash hash' : Bool) (ds : List Char)
    (h : ∀ c ∈ ds, c ∈ hexDigits) (h3 : 3 ≤ ds.length) (h8 : ds.length ≤ 8) :
    Color.parse F pyInt (some ((if hash then ['#'] else []) ++ ds.map Char.toLower)) =
      Color.parse F pyInt (some ((if hash' then ['#'] else []) ++ ds)) := by
  have hl : ∀ c ∈ hexDigits, c.toLower ∈ hexDigits := by decide
  have hn : ∀ c ∈ hexDigits, nib c.toLower = nib c := by decide
  rw [C05_hex_text F pyInt hash' ds h h3 h8, C05_hex_text F pyInt hash _ ?_ (by simpa) (by simpa)]
  · congr 3
    match ds, h with
    | [], _ => rfl
    | [_], _ => rfl
    | [_, _], _ => rfl
    | [a, b, c], h => simp_all [cssHex]
    | [a, b, c, d], h => simp_all [cssHex]
    | [a, b, c, d, e], h => simp [cssHex]
    | [a, b, c, d, e, f], h => simp_all [cssHex]
    | [a, b, c, d, e, f, g], h => simp [cssHex]
    | [a, b, c, d, e, f, g, i], h => simp_all [cssHex]
    | a :: b :: c :: d :: e :: f :: g :: i :: j :: k, h => simp at h8
  · intro c hc
    rw [List.mem_map] at hc
    obtain ⟨d, hd, rfl⟩ := hc
    exact hl d (h d hd)

example : Color.parse FloatRounding.id (fun _ => none) (some "#aBc".toList) = .ok (some 0xAABBCCFF) := by
  decide +kernel

/-! ### C04 -/

/-- the two digits printed for a byte are hex digits denoting it -/
theorem hex2_spec {n : ℤ} (h0 : 0 ≤ n) (h1 : n ≤ 255) :
    ∃ a b, Color.hex2 n = [a, b] ∧ a ∈ hexDigits ∧ b ∈ hexDigits ∧ nib a * 16 + nib b = n := by
  have key : ∀ m : Fin 256, (Color.hexDigit (m.val / 16)) ∈ hexDigits ∧
      (Color.hexDigit (m.val % 16)) ∈ hexDigits ∧
      nib (Color.hexDigit (m.val / 16)) * 16 + nib (Color.hexDigit (m.val % 16)) = m.val := by
    decide +kernel
  obtain ⟨ka, kb, kv⟩ := key ⟨n.toNat, by omega⟩
  refine ⟨_, _, rfl, ka, kb, ?_⟩
  rw [kv]
  simp only
  omega

theorem land_byte (v : ℤ) (s : ℕ) : 0 ≤ Int.land (v >>> s) 0xFF ∧ Int.land (v >>> s) 0xFF ≤ 255 := by
  rw [land_255]; omega

/-- **C04.** `hex` and `hexa` of a colour are `#` and hex digits (6 digits exactly for an opaque
colour) and reading them back gives an equal colour. -/
theorem C04_hex_round_trip (F : FloatRounding) (pyInt : List Char → Option ℤ) (v : ℤ) :
    ∃ t u w w', Color.hex (some v) = some t ∧ Color.hexa (some v) = some u ∧
      Color.parse F pyInt (some t) = .ok w ∧ Color.eq w (some v) = true ∧
      Color.parse F pyInt (some u) = .ok w' ∧ Color.eq w' (some v) = true ∧
      u.length = 9 ∧ (t.length = 7 ↔ Color.alpha (some v) = some 255) ∧
      (t.length ≠ 7 → t = u) := by
  obtain ⟨r1, r2, hr, hr1, hr2, hrv⟩ := hex2_spec (land_byte v 24).1 (land_byte v 24).2
  obtain ⟨g1, g2, hg, hg1, hg2, hgv⟩ := hex2_spec (land_byte v 16).1 (land_byte v 16).2
  obtain ⟨b1, b2, hb, hb1, hb2, hbv⟩ := hex2_spec (land_byte v 8).1 (land_byte v 8).2
  have hav := land_byte v 0
  rw [Int.shiftRight_zero] at hav
  obtain ⟨a1, a2, ha, ha1, ha2, hval⟩ := hex2_spec hav.1 hav.2
  have hu : Color.hexa (some v) = some ['#', r1, r2, g1, g2, b1, b2, a1, a2] := by
    simp [Color.hexa, hr, hg, hb, ha]
  have pu := C05_hex_text F pyInt true [r1, r2, g1, g2, b1, b2, a1, a2] (by simp_all) (by simp) (by simp)
  have pt := C05_hex_text F pyInt true [r1, r2, g1, g2, b1, b2] (by simp_all) (by simp) (by simp)
  simp only [if_true, List.cons_append, List.nil_append, cssHex, Option.getD_some] at pu pt
  rw [hrv, hgv, hbv] at pu pt
  rw [hval] at pu
  have eu : Color.eq (some (Int.land (v >>> (24:ℕ)) 0xFF * 2 ^ 24 + Int.land (v >>> (16:ℕ)) 0xFF * 2 ^ 16
      + Int.land (v >>> (8:ℕ)) 0xFF * 2 ^ 8 + Int.land v 0xFF)) (some v) = true := by
    simp only [Color.eq, decide_eq_true_eq, land_32, land_255, Int.shiftRight_eq_div_pow]
    norm_num
    omega
  by_cases hal : Int.land v 0xFF = 255
  · refine ⟨['#', r1, r2, g1, g2, b1, b2], _, _, _, ?_, hu, pt, ?_, pu, eu, by simp, ?_, by simp⟩
    · simp [Color.hex, Color.alpha, hal, hr, hg, hb]
    · rw [hal] at eu
      exact eu
    · simp [Color.alpha, hal]
  · refine ⟨_, _, _, _, ?_, hu, pu, eu, pu, eu, by simp, ?_, by simp⟩
    · simp [Color.hex, Color.alpha, hal, hu]
    · simp [Color.alpha, hal]

example : Color.hex (some 0x12345678) = some "#12345678".toList := by decide +kernel
example : Color.hex (some (-1)) = some "#ffffff".toList := by decide +kernel

end Svgio.Props
