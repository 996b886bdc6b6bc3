import Verif.Props.CssTree
import Verif.Props.Transform

/-!
C135: the transform that a nested element gets in a document, as a matrix.
-/

namespace Svgio.Props

open Svgio.Spec hiding step
open Svgio LMat

/-- a transform text and the map of points that it stands for -/
def TransformText (s : List Char) (φ : Pt ℝ → Pt ℝ) : Prop :=
  ∃ fs φs, FunctionsText fs (s.map Char.toLower) ∧ List.Forall₂ (Acts pixels pixels) fs φs ∧ φ = compose φs

theorem transformText_spaced (l : List (List Char)) (φs : List (Pt ℝ → Pt ℝ)) (h : List.Forall₂ TransformText l φs) :
    TransformText ([' '].intercalate l) (compose φs) := by
  induction h with
  | nil => exact ⟨[], [], .nil (by simp [Separators]), .nil, rfl⟩
  | @cons s φ l φs h1 h2 ih =>
    obtain ⟨fs, ms, a1, a2, rfl⟩ := h1
    cases h2 with
    | nil => exact ⟨fs, ms, by simpa using a1, a2, rfl⟩
    | @cons s' φ' l' φs' h3 h4 =>
      obtain ⟨gs, ns, b1, b2, b3⟩ := ih
      refine ⟨fs ++ gs, ms ++ ns, ?_, List.rel_append a2 b2, ?_⟩
      · rw [List.intercalate_cons_cons, List.map_append, List.map_append, List.append_assoc]
        refine functionsText_append a1 (functionsText_sep ?_ b1)
        intro c hc
        have hc : c = ' ' := by
          have : [' '].map Char.toLower = [' '] := by decide
          rw [this] at hc
          simpa using hc
        subst hc
        simp
      · funext p
        rw [compose_append]
        show compose ms (compose (φ' :: φs') p) = _
        rw [b3]

/-- C135: in a document, the matrix of the transform of an element is that of all transforms around it, applied from the innermost to the
outermost. `inh` are the values before the outermost element, `owns` the own values of the elements, outermost first; those of them that
have a transform have one of C30. -/
theorem C135_nested (inh : List Char → Option (List Char)) (owns : List (List Char → Option (List Char))) (t : List Char)
    (φs : List (Pt ℝ → Pt ℝ))
    (h : List.Forall₂ TransformText ((inh "transform".toList).toList ++ owns.filterMap (· "transform".toList)) φs)
    (ht : nested inh owns "transform".toList = some t) :
    ∃ M : Mat ℝ, (∀ ctx, ofText ctx t = .ok (ofMat M)) ∧ ∀ p, M.pointInMatrixSpace p = compose φs p := by
  rw [C134_transform] at ht
  unfold spaced at ht
  split at ht
  · cases ht
  · obtain rfl : [' '].intercalate _ = t := Option.some.inj ht
    obtain ⟨fs, ms, a1, a2, a3⟩ := transformText_spaced _ _ h
    obtain ⟨M, h1, h2⟩ := C30_list fs ms _ a1 a2
    exact ⟨M, h1, fun p => by rw [h2, a3]⟩

/-- C135: after a run over a document, the matrix of the transform of every element that is displayed is that of its own transform, then
of those around it from the inside to the outside, and last of the transform that the caller gave. -/
theorem C135_document (e : Markup) (hs : SoundIn e) (color : List Char) (transform : Option (List Char)) :
    ∃ s, Css.run ⟨[], [], Css.initial color transform, []⟩ (markupEvents e) = .ok s ∧
      List.Forall₂ (fun values owns => ∀ φs,
          List.Forall₂ TransformText (transform.toList ++ owns.filterMap (· "transform".toList)) φs →
          match Dom.dictGet values "transform".toList with
          | none => φs = []
          | some t => ∃ M : Mat ℝ, (∀ ctx, ofText ctx t = .ok (ofMat M)) ∧ ∀ p, M.pointInMatrixSpace p = compose φs p)
        s.out ((linesIn ownValues [] e).filter (Seen (atStart color transform))) := by
  obtain ⟨s, h1, h2⟩ := C134_lines_partial e hs color transform
  have e0 : atStart color transform "transform".toList = transform := by
    unfold atStart
    rw [if_neg (by decide), if_neg (by decide), if_neg (by decide), if_pos rfl]
  refine ⟨s, h1, ?_⟩
  have h3 := (List.forall₂_map_left_iff.1 (List.forall₂_map_right_iff.1 (List.forall₂_eq_eq_eq ▸ h2 : List.Forall₂ (· = ·) _ _)))
  refine h3.imp ?_
  rintro values owns hv φs hφ
  rw [hv]
  cases ht : nested (atStart color transform) owns "transform".toList with
  | none =>
    rw [C134_transform, e0] at ht
    unfold spaced at ht
    split at ht
    · next h => rw [h] at hφ; cases hφ; rfl
    · cases ht
  | some t => exact C135_nested _ _ t φs (by rw [e0]; exact hφ) ht

/-- C135: an element has no transform exactly if there is none around it. -/
theorem C135_none (inh : List Char → Option (List Char)) (owns : List (List Char → Option (List Char))) :
    nested inh owns "transform".toList = none ↔ inh "transform".toList = none ∧ ∀ o ∈ owns, o "transform".toList = none := by
  rw [C134_transform]
  unfold spaced
  generalize "transform".toList = T
  rw [ite_eq_left_iff]
  simp only [reduceCtorEq, imp_false, not_not, List.append_eq_nil_iff, List.filterMap_eq_nil_iff, Option.toList_eq_nil_iff]

theorem scaleText (n : List Char) (hn : IsNumber n) (hl : n.map Char.toLower = n) (h0 : n ≠ []) :
    TransformText ("scale(".toList ++ (n ++ ")".toList)) (compose [scaleAbout (num n) (num n) 0 0]) := by
  refine ⟨[("scale".toList, [(n, [])])], _, ?_, .cons .scale .nil, rfl⟩
  have e : ("scale(".toList ++ (n ++ ")".toList)).map Char.toLower = [] ++ ("scale".toList ++ ([] ++ ('(' :: (n ++ (')' :: []))))) := by
    rw [List.map_append, List.map_append, hl]
    rfl
  rw [e]
  refine .cons (by simp [Separators]) (by decide) (by simp [Spaces]) ?_ h0 (.nil (by simp [Separators]))
  have := ParamsText.cons (sep := []) (ws := []) (u := []) (rest := []) (n := n) (ps := []) (by simp [Separators]) hn (by simp [Spaces]) (by decide)
    (stops_of_head (by simp)) (.nil (by simp [Separators]))
  simpa using this

/-- the transforms around the displayed elements of the sample, outermost first -/
example : ((linesIn ownValues [] sampleMarkup).filter (Seen (atStart "black".toList (some "scale(5)".toList)))).map
      (fun owns => owns.filterMap (· "transform".toList)) =
    [[], ["scale(2)".toList], ["scale(2)".toList], ["scale(2)".toList], ["scale(2)".toList, "scale(3)".toList], []] := by decide +kernel

/-- three elements inside each other, the first and the last one with a scaling -/
example : ∃ φs t, List.Forall₂ TransformText (([] : List (List Char)) ++
      [fun k => if k = "transform".toList then some "scale(2)".toList else none, fun _ => none,
        fun k => if k = "transform".toList then some "scale(30)".toList else none].filterMap
        (fun o : List Char → Option (List Char) => o "transform".toList)) φs ∧
    nested (fun _ => none) [fun k => if k = "transform".toList then some "scale(2)".toList else none, fun _ => none,
        fun k => if k = "transform".toList then some "scale(30)".toList else none] "transform".toList = some t ∧
    t = "scale(2) scale(30)".toList := by
  have n : ∀ t ∈ ["2".toList, "30".toList], IsNumber t := by
    intro t ht
    have : ∀ t ∈ ["2".toList, "30".toList], matchFloat t = some (t, []) := by decide +kernel
    exact (matchFloat_sound (this t ht)).2
  refine ⟨[_, _], _, .cons (scaleText "2".toList (n _ (by simp)) (by decide) (by decide))
    (.cons (scaleText "30".toList (n _ (by simp)) (by decide) (by decide)) .nil), ?_, rfl⟩
  decide +kernel

end Svgio.Props
