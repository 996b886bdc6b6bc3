import Verif.Lemmas.PrintFloat
import Verif.Props.PrintPath
import Verif.Spec.PrintDrift
import Verif.Model.Ieee

/-!
C126: saving, loading and saving again, with numbers rounded to floats when they are read.
-/

namespace Svgio.Spec

/-- zero, or not tiny -/
def NotTiny (x : ℚ) : Prop := x = 0 ∨ 1 / 10 ^ 300 ≤ |x|

/-- all points of a segment -/
def segPts (s : Seg ℚ) : List (Pt ℚ) := s.start.toList ++ drawnPts s

end Svgio.Spec

namespace Svgio.Props

open Spec Print Lexer

theorem sgVal_mul {x a : ℚ} (h : 0 < a) : sgVal (sgVal x * a) = sgVal x := by
  unfold sgVal
  by_cases hx : x < 0
  · rw [if_pos hx, if_pos (by linarith)]
  · rw [if_neg hx, if_neg (by linarith)]

theorem log_le_gDigits (prec : ℕ) (a : ℚ) : Int.log 10 a ≤ (gDigits prec a).2 := by
  unfold gDigits
  simp only
  split
  · show Int.log 10 a ≤ Int.log 10 a + 1; omega
  · exact le_refl _

/-- The number read from a printed coordinate is 0, or has 12 digits and an exponent that is printed in full. -/
theorem printed_form {x : ℚ} (hx : x ≠ 0) (h : NotTiny x) : ∃ (m : ℕ) (e : ℤ), 10 ^ 11 ≤ m ∧ m < 10 ^ 12 ∧
    |floatVal (coordText x)| = m * (10 : ℚ) ^ (e - 11) ∧ NotTiny (floatVal (coordText x)) ∧
    ¬ ((e < -4 ∨ 12 ≤ e) ∧ ¬ 10 ^ 11 ∣ m ∧ 10 ∣ e) := by
  have hx1 : 1 / 10 ^ 300 ≤ |x| := h.resolve_left hx
  obtain ⟨e, h1, h2, h3⟩ := coordText_value hx
  obtain ⟨g1, g2, -⟩ := gDigits_spec (prec := 12) (by norm_num) (abs_pos.2 hx)
  have habs : |floatVal (coordText x)| = (gDigits 12 |x|).1 * (10 : ℚ) ^ (e - 11) := by
    rw [h1, abs_mul, abs_sgVal, one_mul, abs_of_nonneg (by positivity)]
  refine ⟨(gDigits 12 |x|).1, e, g1, g2, habs, Or.inr ?_, h2⟩
  have hl : -300 ≤ Int.log 10 |x| := by
    have e2 := Int.lt_zpow_succ_log_self (b := 10) (by norm_num) |x|
    norm_cast at e2
    push_cast at e2
    have h4 : (10 : ℚ) ^ (-300 : ℤ) < (10 : ℚ) ^ (Int.log 10 |x| + 1) := by
      refine lt_of_le_of_lt ?_ e2
      rw [zpow_neg]
      have : (10 : ℚ) ^ (300 : ℤ) = 10 ^ 300 := by exact_mod_cast zpow_natCast (10 : ℚ) 300
      rw [this, ← one_div]; exact hx1
    have := (zpow_lt_zpow_iff_right₀ (by norm_num : (1 : ℚ) < 10)).1 h4
    omega
  have h5 := log_le_gDigits 12 |x|
  have he : -300 ≤ e := by omega
  rw [habs]
  have h6 : (10 : ℚ) ^ (-300 : ℤ) ≤ (10 : ℚ) ^ e := zpow_le_zpow_right₀ (by norm_num) he
  have h7 : (10 : ℚ) ^ e = 10 ^ 11 * (10 : ℚ) ^ (e - 11) := by
    rw [← zpow_natCast, ← zpow_add₀ (by norm_num)]; congr 1; push_cast; ring
  have h8 : (10 : ℚ) ^ 11 * (10 : ℚ) ^ (e - 11) ≤ (gDigits 12 |x|).1 * (10 : ℚ) ^ (e - 11) :=
    mul_le_mul_of_nonneg_right (by exact_mod_cast g1) (by positivity)
  have h9 : (10 : ℚ) ^ (-300 : ℤ) = 1 / 10 ^ 300 := by
    rw [zpow_neg, one_div]
    congr 1
  rw [← h9]
  linarith

theorem coordText_congr {x y : ℚ} (h : fmtG 12 x = fmtG 12 y) : coordText x = coordText y := by
  unfold coordText; rw [h]

/-- The number that was read, rounded to a float, is printed like the number itself. -/
theorem coordText_fl (F : FloatRounding) {x : ℚ} (h : NotTiny x) :
    coordText (F.fl (floatVal (coordText x))) = coordText (floatVal (coordText x)) := by
  by_cases hx : x = 0
  · subst hx
    have h0 : floatVal (coordText 0) = 0 := by decide +kernel
    have := F.exact 0 (by norm_num)
    rw [Int.cast_zero] at this
    rw [h0, this]
  · obtain ⟨m, e, g1, g2, g3, g4, -⟩ := printed_form hx h
    exact coordText_congr (fmtG_near (prec := 12) (e := e) (by norm_num) (le_refl _) g1 g2 (by rw [g3]; norm_num) (fl_close F g4))

/-- C126 for one coordinate: when the first text is read into a float and printed again, the second text denotes exactly the number
that the first text denotes. So from then on nothing changes. -/
theorem C126_settles (F : FloatRounding) {x : ℚ} (h : NotTiny x) :
    floatVal (coordText (F.fl (floatVal (coordText x)))) = floatVal (coordText x) := by
  rw [coordText_fl F h]
  by_cases hx : x = 0
  · subst hx; decide +kernel
  · obtain ⟨m, e, g1, g2, g3, g4, g5⟩ := printed_form hx h
    generalize floatVal (coordText x) = v at *
    have hd : gDigits 12 |v| = (m, e) := gDigits_near (by norm_num) g1 g2 (by
      rw [g3]
      norm_num
      positivity)
    have hv : v ≠ 0 := by
      rintro rfl
      rw [abs_zero] at g3
      have : (0 : ℚ) < m := by
        have : 0 < m := by omega
        exact_mod_cast this
      have : (0 : ℚ) < m * (10 : ℚ) ^ (e - 11) := by positivity
      linarith
    rw [(coordText_number v).2.2 (by rw [hd]; exact fun h => g5 h.2), gVal, if_neg hv, hd]
    have : ((m, e).1 : ℚ) * (10 : ℚ) ^ ((m, e).2 - (((12 : ℕ) : ℤ) - 1)) = |v| := by rw [g3]; norm_num
    rw [this, sg_abs]

/-- C126 for one coordinate, first text: unless the exponent is shortened (C46), the second text is the first one. -/
theorem C126_same_number (F : FloatRounding) {x : ℚ} (h : NotTiny x) (hr : PrintsWell x) :
    coordText (F.fl (floatVal (coordText x))) = coordText x := by
  rw [coordText_fl F h]
  by_cases hx : x = 0
  · subst hx; decide +kernel
  · have hre := hr _ (gVal_rounded (by norm_num) x)
    rw [roundExponent_iff] at hre
    have hv := (coordText_number x).2.2 hre
    rw [gVal, if_neg hx] at hv
    obtain ⟨g1, g2, -⟩ := gDigits_spec (prec := 12) (by norm_num) (abs_pos.2 hx)
    have hpos : (0 : ℚ) < (gDigits 12 |x|).1 * (10 : ℚ) ^ ((gDigits 12 |x|).2 - (((12 : ℕ) : ℤ) - 1)) := by
      have : 0 < (gDigits 12 |x|).1 := by
        have : 0 < 10 ^ (12 - 1) := by norm_num
        omega
      have : (0 : ℚ) < (gDigits 12 |x|).1 := by exact_mod_cast this
      positivity
    have habs : |floatVal (coordText x)| = (gDigits 12 |x|).1 * (10 : ℚ) ^ ((gDigits 12 |x|).2 - (((12 : ℕ) : ℤ) - 1)) := by
      rw [hv, abs_mul, abs_sgVal, one_mul, abs_of_pos hpos]
    have hd : gDigits 12 |floatVal (coordText x)| = gDigits 12 |x| := by
      generalize gDigits 12 |x| = d at *
      exact gDigits_near (e := d.2) (by norm_num) g1 g2 (by
        rw [habs, sub_self, abs_zero, zero_mul]
        positivity)
    have hne : floatVal (coordText x) ≠ 0 := abs_pos.1 (by rw [habs]; exact hpos)
    have hneg : floatVal (coordText x) < 0 ↔ x < 0 := by
      rw [hv]
      generalize (gDigits 12 |x|).1 * (10 : ℚ) ^ ((gDigits 12 |x|).2 - (((12 : ℕ) : ℤ) - 1)) = a at hpos
      unfold sgVal
      by_cases hx : x < 0
      · rw [if_pos hx]; exact ⟨fun _ => hx, fun _ => by linarith⟩
      · rw [if_neg hx]; exact ⟨fun h => by linarith, fun h => absurd h hx⟩
    apply coordText_congr
    generalize floatVal (coordText x) = v at *
    unfold fmtG
    rw [if_neg hne, if_neg hx, hd]
    simp only [hneg]

/-- C126 fails for shortened exponents: 1.5e-10 is first printed as "1.5E-1" and then as "0.15". -/
theorem C126_exponent_wrong (F : FloatRounding) : coordText (15 / 10 ^ 11) = "1.5E-1".toList ∧
    coordText (F.fl (floatVal (coordText (15 / 10 ^ 11)))) = "0.15".toList := by
  have h : NotTiny (15 / 10 ^ 11) := by
    right
    rw [abs_of_pos (by norm_num)]
    have : (1 : ℚ) / 10 ^ 300 ≤ 1 / 10 ^ 11 := one_div_le_one_div_of_le (by positivity) (pow_le_pow_right₀ (by norm_num) (by norm_num))
    refine le_trans this (by norm_num)
  rw [coordText_fl F h]
  exact ⟨C46_exponent_wrong.1, by rw [C46_exponent_wrong.2]; decide +kernel⟩

/-! ### paths -/

variable {mk : Path.ArcCtor ℚ} {arcOf : ArcOf ℚ} {ar : ArcData ℚ → ArcArgs}

/-- the absolute text of a segment without short forms -/
def absText (ar : ArcData ℚ → ArcArgs) (s : Seg ℚ) : List Char :=
  match s.kind with
  | .move => 'M' :: ' ' :: optText s.stop
  | .close => ['Z']
  | .line => 'L' :: ' ' :: optText s.stop
  | .quad c => 'Q' :: ' ' :: (optText c ++ ' ' :: optText s.stop)
  | .cubic c1 c2 => 'C' :: ' ' :: (optText c1 ++ ' ' :: (optText c2 ++ ' ' :: optText s.stop))
  | .arc a => 'A' :: ' ' :: (arcArgsText (ar a) ++ optText s.stop)

theorem partD_abs (prev : Option (Seg ℚ)) (cur : Option (Pt ℚ)) (s : Seg ℚ) :
    partD ar (some false) (some false) prev cur s = .ok (absText ar s) := by
  have h : ∀ sm, isAbs cur (some false) sm = true := by intro sm; simp [isAbs]
  cases hk : s.kind <;> simp [partD, segD, absText, h, hk]

theorem svgD_abs (p : List (Seg ℚ)) : svgD ar p (some false) (some false) = .ok (joinSp (p.map (absText ar))) := by
  have h : ∀ (p : List (Seg ℚ)) prev cur, partsD ar (some false) (some false) prev cur p = .ok (p.map (absText ar)) := by
    intro p
    induction p with
    | nil => intros; rfl
    | cons s r ih => intro prev cur; simp only [partsD, partD_abs, ih, bind, Except.bind, List.map_cons]
  unfold svgD
  rw [h]; rfl

theorem absText_noSmooth (s : Seg ℚ) : absText ar (noSmooth s) = absText ar s := rfl

theorem absText_map (p : List (Seg ℚ)) : (p.map noSmooth).map (absText ar) = p.map (absText ar) := by
  rw [List.map_map]; rfl

theorem chain_redrawn (R : Pt ℚ → Pt ℚ) (ab : ArcData ℚ → Pt ℚ → Pt ℚ → ArcData ℚ) (rel : Bool) (p : List (Seg ℚ)) : ∀ z e,
    Chain Eq Eq z e p → Chain Eq Eq (R z) (R e) (p.map (redrawn R ab rel)) := by
  induction p with
  | nil => intros; trivial
  | cons s r ih =>
    rintro z e ⟨v, u, h1, h2, rfl, h4, h5⟩
    have hc : (redrawn R ab rel s).isClose = s.isClose := by unfold Seg.isClose redrawn; cases s.kind <;> rfl
    have hm : (redrawn R ab rel s).isMove = s.isMove := by unfold Seg.isMove redrawn; cases s.kind <;> rfl
    refine ⟨R e, R u, by simp [redrawn, h1], by simp [redrawn, h2], rfl, ?_, ?_⟩
    · rw [hc]; intro h; rw [h4 h]
    · rw [hm]
      have := ih _ _ h5
      split at this <;> rename_i h0 <;> simp only [h0] at this ⊢ <;> exact this

theorem redrawn_twice {R : Pt ℚ → Pt ℚ} {ab : ArcData ℚ → Pt ℚ → Pt ℚ → ArcData ℚ} {s : Seg ℚ} (ha : ∀ a, s.kind ≠ .arc a)
    (h : ∀ q ∈ segPts s, R (R q) = R q) : redrawn R ab false (redrawn R ab false s) = redrawn R ab false s := by
  have ho : ∀ o : Option (Pt ℚ), (∀ q ∈ o, q ∈ segPts s) → Option.map (R ∘ R) o = o.map R := by
    intro o hq
    cases o with
    | none => rfl
    | some q => simp only [Option.map_some, Function.comp_apply, h q (hq q rfl)]
  have h1 := ho s.start (fun q hq => by rw [Option.mem_def] at hq; simp [segPts, hq])
  have h2 := ho s.stop (fun q hq => by rw [Option.mem_def] at hq; simp [segPts, drawnPts, hq])
  unfold redrawn
  cases hk : s.kind with
  | arc a => exact absurd hk (ha a)
  | quad c =>
    have h3 := ho c (fun q hq => by rw [Option.mem_def] at hq; simp [segPts, drawnPts, hk, hq])
    simp [h1, h2, h3]
  | cubic c1 c2 =>
    have h3 := ho c1 (fun q hq => by rw [Option.mem_def] at hq; simp [segPts, drawnPts, hk, hq])
    have h4 := ho c2 (fun q hq => by rw [Option.mem_def] at hq; simp [segPts, drawnPts, hk, hq])
    simp [h1, h2, h3, h4]
  | move => simp [h1, h2]
  | close => simp [h1, h2]
  | line => simp [h1, h2]

theorem absText_redrawn {R : Pt ℚ → Pt ℚ} {ab : ArcData ℚ → Pt ℚ → Pt ℚ → ArcData ℚ} {s : Seg ℚ} (ha : ∀ a, s.kind ≠ .arc a)
    (h : ∀ q ∈ drawnPts s, ptText (R q) = ptText q) : absText ar (redrawn R ab false s) = absText ar s := by
  have ho : ∀ o : Option (Pt ℚ), (∀ q ∈ o, q ∈ drawnPts s) → optText (o.map R) = optText o := by
    intro o hq
    cases o with
    | none => rfl
    | some q => exact h q (hq q rfl)
  have h2 := ho s.stop (fun q hq => by rw [Option.mem_def] at hq; simp [drawnPts, hq])
  unfold redrawn absText
  cases hk : s.kind with
  | arc a => exact absurd hk (ha a)
  | quad c =>
    have h3 := ho c (fun q hq => by rw [Option.mem_def] at hq; simp [drawnPts, hk, hq])
    simp [h2, h3]
  | cubic c1 c2 =>
    have h3 := ho c1 (fun q hq => by rw [Option.mem_def] at hq; simp [drawnPts, hk, hq])
    have h4 := ho c2 (fun q hq => by rw [Option.mem_def] at hq; simp [drawnPts, hk, hq])
    simp [h2, h3, h4]
  | move => simp [h2]
  | close => simp
  | line => simp [h2]

/-- C126: a connected path of lines and curves is written with absolute coordinates, read with every number rounded to a float, written,
read and written again. The second and the third text are the same, and both readings give the same segments. If no coordinate is
printed with a shortened exponent, the second text is also the first one.

Partial: paths without arcs, `d(relative=False, transformed=False, smooth=False)`. -/
theorem C126_path_partial (F : FloatRounding) (hmk : ArcsBy mk arcOf) (m : Seg ℚ) (p : List (Seg ℚ)) (hm : m.kind = .move)
    (hst : m.start = none) (hconn : Connected Eq (m :: p)) (hends : HasEnds (m :: p)) (hC : ∀ s ∈ p, HasControls s)
    (harc : ∀ s ∈ p, ∀ a, s.kind ≠ .arc a) (hn : ∀ s ∈ m :: p, ∀ q ∈ segPts s, NotTiny q.x ∧ NotTiny q.y) :
    ∃ t p1 t1 p2, pathD ar (m :: p) (some false) false (some false) = .ok t ∧
      parse (fun s => F.fl (floatVal s)) mk [] t = (⟨p1, ⟨[], none⟩⟩, none) ∧
      pathD ar p1 (some false) false (some false) = .ok t1 ∧
      parse (fun s => F.fl (floatVal s)) mk [] t1 = (⟨p2, ⟨[], none⟩⟩, none) ∧
      pathD ar p2 (some false) false (some false) = .ok t1 ∧ p2.map noSmooth = p1.map noSmooth ∧
      ((∀ s ∈ m :: p, ∀ q ∈ drawnPts s, PrintsWell q.x ∧ PrintsWell q.y) → t1 = t) := by
  set val : List Char → ℚ := fun s => F.fl (floatVal s) with hval
  set R := rdPt val with hR
  have step : ∀ (m : Seg ℚ) (p : List (Seg ℚ)), m.kind = .move → m.start = none → Connected Eq (m :: p) → HasEnds (m :: p) →
      (∀ s ∈ p, HasControls s) → ∃ p1, parse val mk [] (joinSp ((m :: p).map (absText ar))) = (⟨p1, ⟨[], none⟩⟩, none) ∧
        p1.map noSmooth = (m :: p).map (redrawn R (arcBack val ar arcOf) false) := by
    intro m p hm hst hconn hends hC
    obtain ⟨t, p1, h1, h2, h3⟩ := svgD_parse (val := val) (ar := ar) hmk R (some false) (some false) m p hm hconn hends hC (fun _ _ => rfl)
      (adj_of_index p m fun i x y _ _ cur _ q _ pen _ => rfl)
      (adj_of_index p m fun i x y _ _ h => by simp [Shortened] at h)
    rw [svgD_abs] at h1
    injection h1 with h1
    subst h1
    refine ⟨p1, h2, ?_⟩
    rw [h3, List.map_cons]
    simp only [Option.getD_some]
    congr 1
    simp only [redrawn, hst]
    rfl
  have hma : ∀ s ∈ m :: p, ∀ a, s.kind ≠ .arc a := by
    intro s hs a
    rcases List.mem_cons.1 hs with rfl | hs
    · rw [hm]; simp
    · exact harc s hs a
  have hRR : ∀ s ∈ m :: p, ∀ q ∈ segPts s, R (R q) = R q := by
    intro s hs q hq
    obtain ⟨h1, h2⟩ := hn s hs q hq
    simp only [hR, rdPt, rd12, hval]
    rw [C126_settles F h1, C126_settles F h2]
  obtain ⟨p1, hp1, hq1⟩ := step m p hm hst hconn hends hC
  have hq1' := hq1
  rw [List.map_cons] at hq1
  obtain ⟨u, hu, hch⟩ := (connected_iff (fun _ => rfl)).1 ⟨hconn, hends⟩
  obtain ⟨hconn2, hends2⟩ := (connected_iff (R := Eq) (S := Eq) (s := redrawn R (arcBack val ar arcOf) false m)
    (r := p.map (redrawn R (arcBack val ar arcOf) false)) (fun _ => rfl)).2
      ⟨R u, by simp [redrawn, hu], chain_redrawn R _ false p u u hch⟩
  obtain ⟨p2, hp2, hq2⟩ := step (redrawn R (arcBack val ar arcOf) false m) (p.map (redrawn R (arcBack val ar arcOf) false))
    (by simp [redrawn, hm]) (by simp [redrawn, hst]) hconn2 hends2 (by
      intro s hs
      obtain ⟨s0, hs0, rfl⟩ := List.mem_map.1 hs
      have := hC s0 hs0
      unfold HasControls redrawn at *
      cases hk : s0.kind <;> simp_all)
  have htext : ∀ p : List (Seg ℚ), pathD ar p (some false) false (some false) = .ok (joinSp ((p.map noSmooth).map (absText ar))) := by
    intro p
    rw [absText_map]
    exact svgD_abs p
  have hidem : ((m :: p).map (redrawn R (arcBack val ar arcOf) false)).map (redrawn R (arcBack val ar arcOf) false) =
      (m :: p).map (redrawn R (arcBack val ar arcOf) false) := by
    rw [List.map_map]
    apply List.map_congr_left
    intro s hs
    exact redrawn_twice (hma s hs) (hRR s hs)
  rw [← List.map_cons] at hp2 hq2
  rw [hidem] at hq2
  refine ⟨_, p1, _, p2, svgD_abs _, hp1, htext p1, ?_, ?_, by rw [hq2, hq1'], ?_⟩
  · rw [hq1']; exact hp2
  · rw [htext p2, hq2, hq1']
  · intro hw
    rw [hq1', List.map_map]
    congr 1
    apply List.map_congr_left
    intro s hs
    refine absText_redrawn (hma s hs) fun q hq => ?_
    have hq' : q ∈ segPts s := List.mem_append_right _ hq
    obtain ⟨h1, h2⟩ := hn s hs q hq'
    obtain ⟨w1, w2⟩ := hw s hs q hq
    simp only [hR, rdPt, rd12, hval, ptText]
    rw [C126_same_number F h1 w1, C126_same_number F h2 w2]

/-! ### the hypotheses are met -/

/-- a path of a line, a curve and a close with coordinates that are not floats -/
def thirds : List (Seg ℚ) :=
  [⟨.line, some ⟨1 / 3, 0⟩, some ⟨2 / 3, -1⟩, false, true⟩, ⟨.quad (some ⟨1 / 7, 5⟩), some ⟨2 / 3, -1⟩, some ⟨0, 1 / 10 ^ 9⟩, false, true⟩,
   ⟨.close, some ⟨0, 1 / 10 ^ 9⟩, some ⟨1 / 3, 0⟩, false, true⟩]

theorem notTiny_of {x : ℚ} (h : x = 0 ∨ 1 / 10 ^ 9 ≤ |x|) : NotTiny x := by
  rcases h with h | h
  · exact Or.inl h
  · right
    exact le_trans (one_div_le_one_div_of_le (by positivity) (pow_le_pow_right₀ (by norm_num) (by norm_num))) h

example (F : FloatRounding) : ∃ t p1 t1,
    pathD (fun _ => ⟨1, 1, 0, false, false⟩) (⟨.move, none, some ⟨1 / 3, 0⟩, false, true⟩ :: thirds) (some false) false (some false) = .ok t ∧
      parse (fun s => F.fl (floatVal s)) dummyArc [] t = (⟨p1, ⟨[], none⟩⟩, none) ∧
      pathD (fun _ => ⟨1, 1, 0, false, false⟩) p1 (some false) false (some false) = .ok t1 := by
  have hconn : Connected Eq (⟨.move, none, some ⟨1 / 3, 0⟩, false, true⟩ :: thirds) ∧
      HasEnds (⟨.move, none, some ⟨1 / 3, 0⟩, false, true⟩ :: thirds) :=
    (connected_iff (fun _ => rfl)).2 ⟨⟨1 / 3, 0⟩, rfl, ⟨1 / 3, 0⟩, ⟨2 / 3, -1⟩, rfl, rfl, rfl, by simp [Seg.isClose], ⟨2 / 3, -1⟩,
      ⟨0, 1 / 10 ^ 9⟩, rfl, rfl, rfl, by simp [Seg.isClose], ⟨0, 1 / 10 ^ 9⟩, ⟨1 / 3, 0⟩, rfl, rfl, rfl, by intro; rfl, trivial⟩
  obtain ⟨t, p1, t1, -, h1, h2, h3, -⟩ := C126_path_partial (ar := fun _ => ⟨1, 1, 0, false, false⟩) (mk := dummyArc) F
    (arcOf := fun a _ _ _ _ _ _ => ⟨a, a, a, 0⟩) (fun _ _ _ _ _ _ _ => rfl) ⟨.move, none, some ⟨1 / 3, 0⟩, false, true⟩ thirds rfl rfl
    hconn.1 hconn.2 (by simp [thirds, HasControls]) (by simp [thirds]) (by
      intro s hs q hq
      simp only [thirds, List.mem_cons, List.not_mem_nil, or_false] at hs
      rcases hs with rfl | rfl | rfl | rfl <;> simp [segPts, drawnPts] at hq <;>
        first
        | (rcases hq with rfl | rfl | rfl <;> exact ⟨notTiny_of (by norm_num [abs_of_pos]), notTiny_of (by norm_num [abs_of_pos])⟩)
        | (rcases hq with rfl | rfl <;> exact ⟨notTiny_of (by norm_num [abs_of_pos]), notTiny_of (by norm_num [abs_of_pos])⟩)
        | (subst hq; exact ⟨notTiny_of (by norm_num [abs_of_pos]), notTiny_of (by norm_num [abs_of_pos])⟩))
  exact ⟨t, p1, t1, h1, h2, h3⟩

example : PrintsWell (5 / 2) := by
  intro y hy
  have h := decimals_ok (x := 5 / 2) (k := 25) (j := 1) (by norm_num) (by norm_num) (by norm_num)
  rw [roundedTo_self h.1 hy]
  exact h.2

end Svgio.Props
