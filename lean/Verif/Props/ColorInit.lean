import Verif.Model.ColorInit
import Verif.Props.ColorChannels
import Verif.Props.ColorFun

/-! C145: what `Color(*args, **kwargs)` makes of its keywords. -/

namespace Svgio.Props
open Svgio.Spec Svgio.Color

/-- the keywords of the packed values and of hue, saturation and lightness are not given -/
def Kw.OnlyChannels (kw : Kw) : Prop :=
  kw.rgb = none ∧ kw.argb = none ∧ kw.rgba = none ∧ kw.h = none ∧ kw.s = none ∧ kw.l = none ∧ kw.hue = none ∧
    kw.saturation = none ∧ kw.lightness = none

/-- what a channel should read after an optional assignment -/
def chanAfter (k : Option ℚ) (old : Option ℤ) : Option ℤ :=
  match k with
  | none => old
  | some x => some (clamp255 x)

theorem assign_chan (ch : Chan) (k : Option ℚ) (v : ℤ) : ∃ w, assign ch.set k (some v) = .ok (some w) ∧
    ch.get (some w) = chanAfter k (ch.get (some v)) ∧ ∀ ch', ch' ≠ ch → ch'.get (some w) = ch'.get (some v) := by
  cases k with
  | none => exact ⟨v, rfl, rfl, fun _ _ => rfl⟩
  | some x =>
    obtain ⟨w, h1, h2, h3, -⟩ := C01_channel_set_get v ch x
    exact ⟨w, h1, h2, h3⟩

theorem assign_opacity (F : FloatRounding) (k : Option ℚ) (v : ℤ) : ∃ w, assign (setOpacity F) k (some v) = .ok (some w) ∧
    (k = none → alpha (some w) = alpha (some v)) ∧
    (∀ o, k = some o → ∃ n : ℤ, alpha (some w) = some (clampI n) ∧ |(n : ℚ) - 255 * o| ≤ 1 / 2 + (|255 * o| / 2 ^ 53 + 1 / 2 ^ 1074)) ∧
    red (some w) = red (some v) ∧ green (some w) = green (some v) ∧ blue (some w) = blue (some v) := by
  cases k with
  | none => exact ⟨v, rfl, fun _ => rfl, fun o h => (by cases h), rfl, rfl, rfl⟩
  | some x =>
    obtain ⟨w, n, h1, h2, h3, h4⟩ := C08_opacity_set F v x
    refine ⟨w, h1, fun h => (by cases h), fun o h => ?_, h4⟩
    cases h
    exact ⟨n, h2, h3⟩

/-- **C145.** The channel keywords of `Color(..)`: `red`, `green`, `blue`, `alpha`, `opacity`, `r`, `g`, `b` set their channel to the number given,
clamped and truncated, and all other channels are those of the positional arguments. The short name wins over the long one, and `opacity` over
`alpha`. -/
theorem C145_channels (F : FloatRounding) (pyInt : List Char → Option ℤ) (args : Args) (kw : Kw) (v : ℤ)
    (hv : ofArgs F pyInt args = .ok (some v)) (hk : Kw.OnlyChannels kw) :
    ∃ w, init F pyInt args kw = .ok (some w) ∧
      red (some w) = chanAfter (kw.r.or kw.red) (red (some v)) ∧
      green (some w) = chanAfter (kw.g.or kw.green) (green (some v)) ∧
      blue (some w) = chanAfter (kw.b.or kw.blue) (blue (some v)) ∧
      (kw.opacity = none → alpha (some w) = chanAfter kw.alpha (alpha (some v))) ∧
      (∀ o, kw.opacity = some o → ∃ n : ℤ, alpha (some w) = some (clampI n) ∧
        |(n : ℚ) - 255 * o| ≤ 1 / 2 + (|255 * o| / 2 ^ 53 + 1 / 2 ^ 1074)) := by
  obtain ⟨k1, k2, k3, k4, k5, k6, k7, k8, k9⟩ := hk
  obtain ⟨w1, e1, r1, o1⟩ := assign_chan .red kw.red v
  obtain ⟨w2, e2, r2, o2⟩ := assign_chan .green kw.green w1
  obtain ⟨w3, e3, r3, o3⟩ := assign_chan .blue kw.blue w2
  obtain ⟨w4, e4, r4, o4⟩ := assign_chan .alpha kw.alpha w3
  obtain ⟨w5, e5, n5, s5, r5, g5, b5⟩ := assign_opacity F kw.opacity w4
  obtain ⟨w6, e6, r6, o6⟩ := assign_chan .red kw.r w5
  obtain ⟨w7, e7, r7, o7⟩ := assign_chan .green kw.g w6
  obtain ⟨w8, e8, r8, o8⟩ := assign_chan .blue kw.b w7
  have a8 : alpha (some w8) = alpha (some w5) :=
    (o8 .alpha (by decide)).trans ((o7 .alpha (by decide)).trans (o6 .alpha (by decide)))
  have a4 : alpha (some w4) = chanAfter kw.alpha (alpha (some v)) := by
    refine r4.trans ?_
    rw [show Chan.alpha.get (some w3) = alpha (some v) from
      (o3 .alpha (by decide)).trans ((o2 .alpha (by decide)).trans (o1 .alpha (by decide)))]
  have red5 : red (some w5) = chanAfter kw.red (red (some v)) :=
    r5.trans ((o4 .red (by decide)).trans ((o3 .red (by decide)).trans ((o2 .red (by decide)).trans r1)))
  have green5 : green (some w5) = chanAfter kw.green (green (some v)) := by
    refine g5.trans ((o4 .green (by decide)).trans ((o3 .green (by decide)).trans (r2.trans ?_)))
    rw [show Chan.green.get (some w1) = green (some v) from o1 .green (by decide)]
  have blue5 : blue (some w5) = chanAfter kw.blue (blue (some v)) := by
    refine b5.trans ((o4 .blue (by decide)).trans (r3.trans ?_))
    rw [show Chan.blue.get (some w2) = blue (some v) from (o2 .blue (by decide)).trans (o1 .blue (by decide))]
  have or_after : ∀ a b : Option ℚ, ∀ x, chanAfter a (chanAfter b x) = chanAfter (a.or b) x := by
    intro a b x
    cases a <;> rfl
  refine ⟨w8, ?_, ?_, ?_, ?_, fun h => ?_, fun o h => ?_⟩
  · have E1 : assign setRed kw.red (some v) = .ok (some w1) := e1
    have E2 : assign setGreen kw.green (some w1) = .ok (some w2) := e2
    have E3 : assign setBlue kw.blue (some w2) = .ok (some w3) := e3
    have E4 : assign setAlpha kw.alpha (some w3) = .ok (some w4) := e4
    have E6 : assign setRed kw.r (some w5) = .ok (some w6) := e6
    have E7 : assign setGreen kw.g (some w6) = .ok (some w7) := e7
    have E8 : assign setBlue kw.b (some w7) = .ok (some w8) := e8
    unfold init
    rw [hv, k1, k2, k3, k4, k5, k6, k7, k8, k9]
    simp only [bind, Except.bind]
    simp only [E1, E2, E3, E4, e5, E6, E7, E8]
    rfl
  · rw [← or_after, ← red5]
    refine (o8 .red (by decide)).trans ((o7 .red (by decide)).trans r6)
  · rw [← or_after, ← green5]
    refine (o8 .green (by decide)).trans (r7.trans ?_)
    rw [show Chan.green.get (some w6) = green (some w5) from o6 .green (by decide)]
  · rw [← or_after, ← blue5]
    refine r8.trans ?_
    rw [show Chan.blue.get (some w7) = blue (some w5) from (o7 .blue (by decide)).trans (o6 .blue (by decide))]
  · rw [a8, n5 h, a4]
  · obtain ⟨n, h1, h2⟩ := s5 o h
    exact ⟨n, a8.trans h1, h2⟩

example : ∃ w, init FloatRounding.id (fun _ => none) (.one (.text (some "#123456".toList))) { red := some 7, r := some 300, alpha := some 0 }
    = .ok (some w) ∧ red (some w) = some 255 ∧ green (some w) = some 0x34 ∧ alpha (some w) = some 0 :=
  ⟨0xFF345600, by decide +kernel, by decide +kernel, by decide +kernel, by decide +kernel⟩

/-- **C145.** The packed keywords replace whatever the positional arguments and the channel keywords gave: `rgba=x` makes the value `x`, otherwise
`argb=x` the colour with that alpha, red, green and blue, otherwise `rgb=x` the opaque colour. -/
theorem C145_packed (F : FloatRounding) (pyInt : List Char → Option ℤ) (args : Args) (kw : Kw) (v : ℤ) (x : ℤ)
    (hv : ofArgs F pyInt args = .ok (some v))
    (hk : kw.h = none ∧ kw.s = none ∧ kw.l = none ∧ kw.hue = none ∧ kw.saturation = none ∧ kw.lightness = none) :
    (kw.rgba = some x → init F pyInt args kw = .ok (some x)) ∧
    (kw.rgba = none → kw.argb = some x → ∃ w, init F pyInt args kw = .ok (some w) ∧
      argb (some w) = some (x % 2 ^ 32)) ∧
    (kw.rgba = none → kw.argb = none → kw.rgb = some x → ∃ w, init F pyInt args kw = .ok (some w) ∧
      rgb (some w) = some x ∧ alpha (some w) = some 255) := by
  obtain ⟨k4, k5, k6, k7, k8, k9⟩ := hk
  obtain ⟨w1, e1, -⟩ := assign_chan .red kw.red v
  obtain ⟨w2, e2, -⟩ := assign_chan .green kw.green w1
  obtain ⟨w3, e3, -⟩ := assign_chan .blue kw.blue w2
  obtain ⟨w4, e4, -⟩ := assign_chan .alpha kw.alpha w3
  obtain ⟨w5, e5, -⟩ := assign_opacity F kw.opacity w4
  obtain ⟨w6, e6, -⟩ := assign_chan .red kw.r w5
  obtain ⟨w7, e7, -⟩ := assign_chan .green kw.g w6
  obtain ⟨w8, e8, -⟩ := assign_chan .blue kw.b w7
  have E1 : assign setRed kw.red (some v) = .ok (some w1) := e1
  have E2 : assign setGreen kw.green (some w1) = .ok (some w2) := e2
  have E3 : assign setBlue kw.blue (some w2) = .ok (some w3) := e3
  have E4 : assign setAlpha kw.alpha (some w3) = .ok (some w4) := e4
  have E6 : assign setRed kw.r (some w5) = .ok (some w6) := e6
  have E7 : assign setGreen kw.g (some w6) = .ok (some w7) := e7
  have E8 : assign setBlue kw.b (some w7) = .ok (some w8) := e8
  have key : init F pyInt args kw = (do
      let v ← assign (fun _ x => .ok (setRgb x)) kw.rgb (some w8)
      let v ← assign (fun _ x => .ok (setArgb x)) kw.argb v
      assign (fun _ x => .ok (setRgba x)) kw.rgba v) := by
    unfold init
    rw [hv, k4, k5, k6, k7, k8, k9]
    simp only [bind, Except.bind]
    simp only [E1, E2, E3, E4, e5, E6, E7, E8]
    cases kw.rgb <;> cases kw.argb <;> cases kw.rgba <;> rfl
  refine ⟨fun h => ?_, fun h1 h2 => ?_, fun h1 h2 h3 => ?_⟩
  · rw [key, h]
    cases kw.rgb <;> cases kw.argb <;> rfl
  · refine ⟨_, ?_, ((C03_argb x).1)⟩
    rw [key, h1, h2]
    cases kw.rgb <;> rfl
  · refine ⟨_, ?_, (C03_rgb x).1, (C03_rgb x).2.1⟩
    rw [key, h1, h2, h3]
    rfl

/-- **C145.** Positional arguments: a colour is copied, a number is read as `0xRRGGBB`, the second of two arguments is the opacity and leaves the
other channels alone, and three or four arguments are the channels. The texts are C05, C06 and C124. -/
theorem C145_args (F : FloatRounding) (pyInt : List Char → Option ℤ) :
    (∀ c, init F pyInt (.one (.color c)) {} = .ok c) ∧
    (∀ n : ℤ, ∃ w, init F pyInt (.one (.int n)) {} = .ok w ∧ rgb w = some n ∧ alpha w = some 255 ∧ red w = some (byte 2 n) ∧
      green w = some (byte 1 n) ∧ blue w = some (byte 0 n)) ∧
    (∀ s, init F pyInt (.one (.text s)) {} = parse F pyInt s) ∧
    (∀ s v o, init F pyInt (.one s) {} = .ok (some v) → ∃ (w : ℤ) (n : ℤ), init F pyInt (.two s o) {} = .ok (some w) ∧
      alpha (some w) = some (clampI n) ∧ |(n : ℚ) - 255 * o| ≤ 1 / 2 + (|255 * o| / 2 ^ 53 + 1 / 2 ^ 1074) ∧
      red (some w) = red (some v) ∧ green (some w) = green (some v) ∧ blue (some w) = blue (some v)) ∧
    (∀ s o, init F pyInt (.one s) {} = .ok none → init F pyInt (.two s o) {} = .error .valueError) ∧
    (∀ r g b : ℤ, ∃ w, init F pyInt (.three r g b) {} = .ok w ∧ red w = some (clampI r) ∧ green w = some (clampI g) ∧
      blue w = some (clampI b) ∧ alpha w = some 255) ∧
    ∀ r g b a : ℤ, ∃ w, init F pyInt (.four r g b a) {} = .ok w ∧ red w = some (clampI r) ∧ green w = some (clampI g) ∧
      blue w = some (clampI b) ∧ alpha w = some (clampI a) := by
  have plain : ∀ args v, ofArgs F pyInt args = .ok v → init F pyInt args {} = .ok v := by
    intro args v h
    unfold init
    rw [h]
    rfl
  have one : ∀ s, init F pyInt (.one s) {} = ofSource F pyInt s := by
    intro s
    unfold init
    rw [show ofArgs F pyInt (.one s) = ofSource F pyInt s from rfl]
    cases ofSource F pyInt s <;> rfl
  refine ⟨fun c => plain _ _ rfl, fun n => ⟨_, plain _ _ rfl, ?_⟩, fun s => one _, fun s v o h => ?_, fun s o h => ?_, fun r g b => ?_, fun r g b a => ?_⟩
  · obtain ⟨h1, h2, h3, h4, h5, -⟩ := C03_rgb n
    exact ⟨h1, h2, h3, h4, h5⟩
  · rw [one] at h
    obtain ⟨w, n, h1, h2, h3, h4⟩ := C08_opacity_set F v o
    refine ⟨w, n, plain _ _ ?_, h2, h3, h4⟩
    simp only [ofArgs, h]
    exact h1
  · rw [one] at h
    unfold init
    rw [show ofArgs F pyInt (.two s o) = .error .valueError by simp only [ofArgs, h]; rfl]
    rfl
  · obtain ⟨w, e, -, -, h1, h2, h3, h4⟩ := C02_rgb F r g b
    refine ⟨some w, plain _ _ ?_, h1, h2, h3, h4⟩
    simp only [ofArgs, e]
  · obtain ⟨w, e, -, -, h1, h2, h3, h4⟩ := C02_rgba F r g b a
    refine ⟨some w, plain _ _ ?_, h1, h2, h3, h4⟩
    simp only [ofArgs, e]

/-- **C145.** The long names `hue`, `saturation` and `lightness` mean the same as `h`, `s` and `l`. -/
theorem C145_names (F : FloatRounding) (pyInt : List Char → Option ℤ) (args : Args) (kw : Kw) (h s l : Option ℚ)
    (hk : kw.h = none ∧ kw.s = none ∧ kw.l = none ∧ kw.hue = none ∧ kw.saturation = none ∧ kw.lightness = none) :
    init F pyInt args { kw with hue := h, saturation := s, lightness := l } = init F pyInt args { kw with h := h, s := s, l := l } := by
  obtain ⟨k1, k2, k3, k4, k5, k6⟩ := hk
  unfold init
  simp only [k1, k2, k3, k4, k5, k6]
  have none_ok : ∀ {α : Type} (f : Option ℤ → α → Except PyErr (Option ℤ)) v, assign f none v = .ok v := fun _ _ => rfl
  have ok_bind : ∀ (v : Option ℤ) (f : Option ℤ → Except PyErr (Option ℤ)), (Except.ok v >>= f) = f v := fun _ _ => rfl
  have bind_ok : ∀ x : Except PyErr (Option ℤ), (x >>= fun v => Except.ok v) = x := fun x => by cases x <;> rfl
  simp only [none_ok, ok_bind, bind_ok]

example : init FloatRounding.id (fun _ => none) (.one (.int 0x336699)) { hue := some (1 / 3) } =
    init FloatRounding.id (fun _ => none) (.one (.int 0x336699)) { h := some (1 / 3) } :=
  C145_names FloatRounding.id _ _ {} (some (1 / 3)) none none ⟨rfl, rfl, rfl, rfl, rfl, rfl⟩

/-- **C145, refusals.** A colour without a value takes no channel keyword. -/
theorem C145_none (F : FloatRounding) (pyInt : List Char → Option ℤ) (args : Args) (kw : Kw) (hv : ofArgs F pyInt args = .ok none)
    (hk : kw.red ≠ none ∨ kw.green ≠ none ∨ kw.blue ≠ none ∨ kw.alpha ≠ none ∨ kw.opacity ≠ none ∨ kw.r ≠ none ∨ kw.g ≠ none ∨ kw.b ≠ none) :
    init F pyInt args kw = .error .valueError := by
  unfold init
  rw [hv]
  cases h1 : kw.red with
  | some _ => rfl
  | none => cases h2 : kw.green with
    | some _ => rfl
    | none => cases h3 : kw.blue with
      | some _ => rfl
      | none => cases h4 : kw.alpha with
        | some _ => rfl
        | none => cases h5 : kw.opacity with
          | some _ => rfl
          | none => cases h6 : kw.r with
            | some _ => rfl
            | none => cases h7 : kw.g with
              | some _ => rfl
              | none => cases h8 : kw.b with
                | some _ => rfl
                | none => simp_all

example : init FloatRounding.id (fun _ => none) (.one (.text none)) { red := some 1 } = .error .valueError := by decide +kernel

/-- **C145 fails.** `Color(red=r, green=g, blue=b)` is fully transparent, for all numbers, while `Color(r, g, b)` is opaque: they are never equal. -/
theorem C145_transparent_wrong (F : FloatRounding) (pyInt : List Char → Option ℤ) (r g b : ℤ) :
    ∃ v w, init F pyInt .zero { red := some r, green := some g, blue := some b } = .ok (some v) ∧
      init F pyInt (.three r g b) {} = .ok (some w) ∧ alpha (some v) = some 0 ∧ alpha (some w) = some 255 ∧
      Color.eq (some v) (some w) = false := by
  obtain ⟨v, h1, -, -, -, h5, -⟩ := C145_channels F pyInt .zero { red := some r, green := some g, blue := some b } 0 rfl
    ⟨rfl, rfl, rfl, rfl, rfl, rfl, rfl, rfl, rfl⟩
  obtain ⟨w, e, -, -, -, -, -, ha⟩ := C02_rgb F r g b
  have hv : alpha (some v) = some 0 := (h5 rfl).trans (show alpha (some 0) = some 0 by decide +kernel)
  refine ⟨v, w, h1, ?_, hv, ha, ?_⟩
  · show (Except.ok (mk3 F r g b) : Except PyErr (Option ℤ)) = _
    rw [e]
  · by_contra hc
    have h : alpha (some v) = alpha (some w) := (C07_eq_iff (some v) (some w)).1 (by simpa using hc) .alpha
    rw [hv, ha] at h
    cases h

/-- **C145 fails.** `Color(h=h, s=s, l=l)` is a grey, whatever hue and saturation are asked for: each keyword is applied on its own, to black, which
has neither hue nor saturation. -/
theorem C145_hsl_wrong (F : FloatRounding) (pyInt : List Char → Option ℤ) (h s l : ℚ) :
    ∃ v, init F pyInt .zero { h := some h, s := some s, l := some l } = .ok (some v) ∧ red (some v) = some (clamp255 (255 * l)) ∧
      green (some v) = red (some v) ∧ blue (some v) = red (some v) := by
  have black : rgbToInt F 0 0 0 1 = 255 := by
    have := rgbToInt_opaque F 0 0 0
    push_cast at this
    rw [this]
    decide +kernel
  have hh : hsl (some 255) = some (0, 0, 0) := by decide +kernel
  have h0 : hsl (some 0) = some (0, 0, 0) := by decide +kernel
  have e1 : setHue F (some 0) h = .ok (some 255) := by
    simp [setHue, withHsl, h0, setHsl, hslToInt, black]
  have e2 : setSaturation F (some 255) s = .ok (some 255) := by
    simp [setSaturation, withHsl, hh, setHsl, hslToInt, hue2rgb, black]
  have e3 : setLightness F (some 255) l = .ok (some (rgbToInt F (255 * l) (255 * l) (255 * l) 1)) := by
    simp [setLightness, withHsl, hh, setHsl, hslToInt]
  obtain ⟨c1, c2, c3, -⟩ := rgbToInt_get F (255 * l) (255 * l) (255 * l) 1
  refine ⟨_, ?_, c1, c2.trans c1.symm, c3.trans c1.symm⟩
  rw [← e3]
  unfold init
  show (setHue F (some 0) h >>= fun v => setSaturation F v s >>= fun v => setLightness F v l >>= fun v => Except.ok v) = _
  rw [e1]
  show (setSaturation F (some 255) s >>= fun v => setLightness F v l >>= fun v => Except.ok v) = _
  rw [e2]
  show (setLightness F (some 255) l >>= fun v => Except.ok v) = _
  rw [e3]
  rfl

/-- the pure red asked for is black with lightness one half: grey -/
example : init FloatRounding.id (fun _ => none) .zero { h := some 0, s := some 1, l := some (1 / 2) } = .ok (some 0x7F7F7FFF) := by decide +kernel

end Svgio.Props
