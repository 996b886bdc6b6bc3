import Verif.Model.ElementShapes
import Verif.Props.DomProps
import Verif.Props.DomLoad
import Verif.Props.Picture

/-!
C119: from a file to the picture of a path element; C105 for the other shapes.
-/

namespace Svgio.Props

open Svgio.Dom Svgio.Spec Svgio.Lexer

/-- **C119**: if a document is loaded, `segments()` of each path element gives the segments whose points are the picture that SVG says its
attribute `d` draws, with the restrictions of C112. Partial also because a transform of the element or around it is not applied
(`C119_transform_wrong`). -/
theorem C119_file_partial (x : Xml Str) (evs : List (Ev Str)) (he : evs.filter (· ≠ .ns) = events x)
    (hdict : ∀ tag a, Ev.start tag a ∈ evs → IsDict a) (d : Dom Str) (h : load evs = .ok d) (k : ℕ) (attrs : Dict Str) (tag : Str)
    (htag : tag = "path".toList ∨ tag = "{http://www.w3.org/2000/svg}path".toList) (hk : (elements x)[k]? = some (tag, attrs))
    (numpy : Bool) (ang : ArcData ℝ → Bool) (hang : ∀ a, a.sweep ≠ 0 → ang a = true) {cs : List (Cmd ℝ)} {rel : Bool} {p : Pt ℝ} {s : Str}
    (hs : dictGet attrs "d".toList = some s) (hwf : WellFormed (.move rel p :: cs)) (hmix : NoMixedSmooth (.move rel p :: cs))
    (hw : Writes realVal (.move rel p :: cs) s) (ha : ArcsPlain ⟨p, p, none⟩ cs) :
    ∃ path fs, pathSegments realVal Arc.svgCtor d (k + 1) = .ok path ∧ List.Forall₂ (Gives numpy ang) path fs ∧
      Picture (.move rel p :: cs) fs := by
  obtain ⟨n, hn, hc, hat⟩ := (C65_tree_partial x evs he d h).2.2.2 k _ hk
  change UsualClass tag n.cls at hc
  have hcls : n.cls = .path := by
    rcases htag with rfl | rfl
    · rw [hc (by unfold NsOk; decide +kernel) (by decide +kernel)]; decide +kernel
    · rw [hc (by unfold NsOk; decide +kernel) (by decide +kernel)]; decide +kernel
  have hd : Reachable d := .parsed .new hdict h
  have hv : ownValue attrs "d".toList = some s := by
    have e : standsFor "d".toList = ["d".toList] := by decide +kernel
    unfold ownValue
    rw [e]
    simp only [List.findSome?, hs]
  have hA := (C117_own_partial d hd (k + 1) (C68_loaded x evs he d h _) n hn attrs hat "d".toList (by rw [hcls]; decide +kernel)
    (by rw [hcls]; decide +kernel) (fun h => absurd h (by decide +kernel))).1 s hv
  obtain ⟨path, fs, h1, h2, h3⟩ := C112_picture_partial numpy ang hang hwf hmix hw ha
  refine ⟨path, fs, ?_, h2, h3⟩
  unfold pathSegments
  rw [hA]
  simp only [h1]

/-- **C119**: whatever the attribute `d` of a path element in a loaded document is, `segments()` does what `Path(d)` does: it gives the same
segments or raises the same exception. -/
theorem C119_same (x : Xml Str) (evs : List (Ev Str)) (he : evs.filter (· ≠ .ns) = events x)
    (hdict : ∀ tag a, Ev.start tag a ∈ evs → IsDict a) (d : Dom Str) (h : load evs = .ok d) (k : ℕ) (attrs : Dict Str) (tag : Str)
    (htag : tag = "path".toList ∨ tag = "{http://www.w3.org/2000/svg}path".toList) (hk : (elements x)[k]? = some (tag, attrs))
    {s : Str} (hs : dictGet attrs "d".toList = some s) :
    (∀ st, parse realVal Arc.svgCtor [] s = (st, none) → pathSegments realVal Arc.svgCtor d (k + 1) = .ok st.path) ∧
      ∀ st e, parse realVal Arc.svgCtor [] s = (st, some e) → pathSegments realVal Arc.svgCtor d (k + 1) = .error e := by
  obtain ⟨n, hn, hc, hat⟩ := (C65_tree_partial x evs he d h).2.2.2 k _ hk
  change UsualClass tag n.cls at hc
  have hcls : n.cls = .path := by
    rcases htag with rfl | rfl
    · rw [hc (by unfold NsOk; decide +kernel) (by decide +kernel)]; decide +kernel
    · rw [hc (by unfold NsOk; decide +kernel) (by decide +kernel)]; decide +kernel
  have hd : Reachable d := .parsed .new hdict h
  have hv : ownValue attrs "d".toList = some s := by
    have e : standsFor "d".toList = ["d".toList] := by decide +kernel
    unfold ownValue
    rw [e]
    simp only [List.findSome?, hs]
  have hA := (C117_own_partial d hd (k + 1) (C68_loaded x evs he d h _) n hn attrs hat "d".toList (by rw [hcls]; decide +kernel)
    (by rw [hcls]; decide +kernel) (fun h => absurd h (by decide +kernel))).1 s hv
  unfold pathSegments
  rw [hA]
  exact ⟨fun st h => by simp only [h], fun st e h => by simp only [h]⟩

/-- a text that raises -/
example : (parse floatVal dummyArc [] "M1,1L".toList).2.isSome := by decide +kernel

/-- the text of the example of C112 in a file -/
example : ∃ d : Dom Str, ∃ x : Xml Str, ∃ evs, evs.filter (· ≠ .ns) = events x ∧ load evs = .ok d ∧
    (elements x)[1]? = some ("path".toList, [("d".toList, "M1,1A2 2 1 01 2,1z".toList)]) :=
  ⟨_, .elem "svg".toList [] [.elem "path".toList [("d".toList, "M1,1A2 2 1 01 2,1z".toList)] []], _, by
    rw [List.filter_eq_self.2]
    · intro e he
      simp [events, eventsList] at he
      rcases he with rfl | rfl | rfl <;> rfl, rfl, rfl⟩

/-- C119 is false of a path with a transform: its segments are not moved. -/
theorem C119_transform_wrong : ∃ d : Dom Str, load [.start "path".toList [("d".toList, "M1,1".toList), ("transform".toList,
      "translate(5,5)".toList)], .stop] = .ok d ∧
    pathSegments floatVal dummyArc d 1 = .ok [⟨.move, none, some ⟨1, 1⟩, false, true⟩] := ⟨_, rfl, by decide +kernel⟩

/-- C105 is false of circles and ellipses: they have no segments, whatever their transform. -/
theorem C105_circle_wrong (t : Option (Mat ℝ)) (transformed : Bool) : roundSegments t transformed = .error .attributeError := by
  cases t <;> cases transformed <;> rfl

/-- C105 is false of polylines and polygons in a loaded document: their segments are None. -/
theorem C105_poly_wrong (x : Xml Str) (evs : List (Ev Str)) (he : evs.filter (· ≠ .ns) = events x)
    (hdict : ∀ tag a, Ev.start tag a ∈ evs → IsDict a) (d : Dom Str) (h : load evs = .ok d) (k : ℕ) (attrs : Dict Str) (tag : Str)
    (htag : tag = "polyline".toList ∨ tag = "polygon".toList) (hk : (elements x)[k]? = some (tag, attrs)) (s : Str)
    (hs : dictGet attrs "points".toList = some s) (h0 : s ≠ []) :
    polySegments (K := ℝ) d (k + 1) = .ok none := by
  obtain ⟨n, hn, hc, hat⟩ := (C65_tree_partial x evs he d h).2.2.2 k _ hk
  change UsualClass tag n.cls at hc
  have hd : Reachable d := .parsed .new hdict h
  have hv : ownValue attrs "points".toList = some s := by
    have e : standsFor "points".toList = ["points".toList] := by decide +kernel
    unfold ownValue
    rw [e]
    simp only [List.findSome?, hs]
  have hcls : n.cls = .polyline ∨ n.cls = .polygon := by
    rcases htag with rfl | rfl
    · left; rw [hc (by unfold NsOk; decide +kernel) (by decide +kernel)]; decide +kernel
    · right; rw [hc (by unfold NsOk; decide +kernel) (by decide +kernel)]; decide +kernel
  have hA := (C117_own_partial d hd (k + 1) (C68_loaded x evs he d h _) n hn attrs hat "points".toList
    (by rcases hcls with e | e <;> rw [e] <;> decide +kernel) (by rcases hcls with e | e <;> rw [e] <;> decide +kernel)
    (fun h => absurd h (by decide +kernel))).1 s hv
  unfold polySegments
  rw [hA]
  have : s.length ≠ 0 := by simpa using h0
  simp [this]

example : ∃ d : Dom Str, load [.start "polygon".toList [("points".toList, "0,0 2,0 2,2".toList)], .stop] = .ok d ∧
    polySegments (K := ℚ) d 1 = .ok none := ⟨_, rfl, by decide +kernel⟩

end Svgio.Props
