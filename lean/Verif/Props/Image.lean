import Verif.Model.Image

/-! C147: the data of image elements. -/

namespace Svgio.Props
open Svgio.Dom

/-- the attribute is one that no image has -/
theorem image_missing {d : Dom Str} {i : ℕ} {n : NodeRec Str} (hn : d.nodes[i]? = some n) (hc : n.cls = .image) (name : Str)
    (h : dictGet bootstrap (dashes name) = none ∧ dictGet (lookups .image) name = none) : getAttribute d i name = .error .attributeError := by
  unfold getAttribute
  rw [hn]
  simp only [hc, h.1, h.2, reduceCtorEq, if_false]

/-- **C147.** Full statement: `image.data` is the decoded content of a base64 data URL, and None for every other reference. Proved here: None for
every reference that is not such a URL. Missing, since false: the content, see `C147_data_wrong`. -/
theorem C147_other_partial (b64 : Str → Str) {d : Dom Str} {i : ℕ} {url : Str} (hu : getAttribute d i "href".toList = .ok (.attr url))
    (h : ∀ kind ∈ ["png".toList, "jpg".toList, "jpeg".toList, "svg+xml".toList], ∀ rest,
      url ≠ "data:image/".toList ++ kind ++ ";base64,".toList ++ rest) : imageData b64 d i = .ok none := by
  have hno : dataUrl url = none := by
    unfold dataUrl
    rw [Option.map_eq_none_iff, List.find?_eq_none]
    intro p hp hs
    obtain ⟨rest, hr⟩ := List.isPrefixOf_iff_prefix.1 hs
    simp only [dataUrls, List.mem_cons, List.not_mem_nil, or_false] at hp
    rcases hp with rfl | rfl | rfl | rfl
    · exact h "png".toList (by simp) rest hr.symm
    · exact h "jpg".toList (by simp) rest hr.symm
    · exact h "jpeg".toList (by simp) rest hr.symm
    · exact h "svg+xml".toList (by simp) rest hr.symm
  unfold imageData
  simp only [hu, bind, Except.bind, hno]
  split <;> rfl

/-- **C147 fails** for every base64 data URL: AttributeError, since images have no attribute `url`. -/
theorem C147_data_wrong (b64 : Str → Str) {d : Dom Str} {i : ℕ} {n : NodeRec Str} (hn : d.nodes[i]? = some n) (hc : n.cls = .image)
    {kind rest : Str} (hk : kind ∈ ["png".toList, "jpg".toList, "jpeg".toList, "svg+xml".toList])
    (hu : getAttribute d i "href".toList = .ok (.attr ("data:image/".toList ++ kind ++ ";base64,".toList ++ rest))) :
    imageData b64 d i = .error .attributeError := by
  have hurl := image_missing hn hc "url".toList (by decide)
  have hs : startsWith ("data:image/".toList ++ kind ++ ";base64,".toList ++ rest) "data:image/".toList = true := by
    rw [startsWith, List.isPrefixOf_iff_prefix, List.append_assoc, List.append_assoc]
    exact List.prefix_append _ _
  have hd : ∃ m, dataUrl ("data:image/".toList ++ kind ++ ";base64,".toList ++ rest) = some m := by
    cases hx : dataUrl ("data:image/".toList ++ kind ++ ";base64,".toList ++ rest) with
    | some m => exact ⟨m, rfl⟩
    | none =>
      exfalso
      rw [dataUrl, Option.map_eq_none_iff, List.find?_eq_none] at hx
      have : ∀ k ∈ ["png".toList, "jpg".toList, "jpeg".toList, "svg+xml".toList],
          ∃ p ∈ dataUrls, p.1 = "data:image/".toList ++ k ++ ";base64,".toList := by decide
      obtain ⟨p, hp, e⟩ := this kind hk
      refine hx p hp ?_
      rw [startsWith, List.isPrefixOf_iff_prefix, e]
      exact List.prefix_append _ _
  obtain ⟨m, hm⟩ := hd
  unfold imageData
  simp only [hu, bind, Except.bind, hm, if_pos hs, hurl]

/-- **C147 fails** for images without a reference: AttributeError instead of None. -/
theorem C147_none_wrong (b64 : Str → Str) {d : Dom Str} {i : ℕ} (hu : getAttribute d i "href".toList = .ok .nothing) :
    imageData b64 d i = .error .attributeError := by
  unfold imageData
  rw [hu]
  rfl

/-- **C147 fails** for `image.load()`: with PIL it raises AttributeError for every image and every reference, even if the image can be opened;
without PIL it does nothing. -/
theorem C147_load_wrong (b64 : Str → Str) {d : Dom Str} {i : ℕ} {n : NodeRec Str} (hn : d.nodes[i]? = some n) (hc : n.cls = .image) :
    (∀ url, getAttribute d i "href".toList = .ok (.attr url) → imageLoad b64 true (.ok ()) d i = .error .attributeError) ∧
    imageLoad b64 false (.ok ()) d i = .ok () := by
  refine ⟨fun url hu => ?_, rfl⟩
  have hset := image_missing hn hc "set_values_by_image".toList (by decide)
  by_cases h : ∃ kind ∈ ["png".toList, "jpg".toList, "jpeg".toList, "svg+xml".toList], ∃ rest,
      url = "data:image/".toList ++ kind ++ ";base64,".toList ++ rest
  · obtain ⟨kind, hk, rest, rfl⟩ := h
    unfold imageLoad
    rw [if_pos rfl, C147_data_wrong b64 hn hc hk hu]
    rfl
  · have : imageData b64 d i = .ok none := C147_other_partial b64 hu fun k hk rest e => h ⟨k, hk, rest, e⟩
    unfold imageLoad
    rw [if_pos rfl, this, hu]
    simp only [bind, Except.bind, hset]

/-- an image with a data URL and one with a file, as they are loaded -/
example : ∃ d : Dom Str, load [.start "svg".toList [], .start "image".toList [("href".toList, "data:image/png;base64,iVBORw0KGgo=".toList)], .stop,
      .start "image".toList [("href".toList, "a.png".toList)], .stop, .start "image".toList [], .stop, .stop] = .ok d ∧
    imageData id d 2 = .error .attributeError ∧ imageData id d 3 = .ok none ∧ imageData id d 4 = .error .attributeError ∧
    imageLoad id true (.ok ()) d 3 = .error .attributeError := by
  refine ⟨_, rfl, ?_, ?_, ?_, ?_⟩
  · exact C147_data_wrong id (n := _) rfl rfl (kind := "png".toList) (rest := "iVBORw0KGgo=".toList) (by decide) (by decide +kernel)
  · refine C147_other_partial id (url := "a.png".toList) (by decide +kernel) fun kind _ rest h => ?_
    have := congrArg List.head? h
    simp at this
  · exact C147_none_wrong id (by decide +kernel)
  · exact (C147_load_wrong id (n := _) rfl rfl).1 "a.png".toList (by decide +kernel)

end Svgio.Props
