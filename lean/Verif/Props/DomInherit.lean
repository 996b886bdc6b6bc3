import Verif.Props.DomTree

/-!
C68: inherited values; C81: the arguments of builders become attributes; C82: shapes read their own attributes.
-/

namespace Svgio.Props

open Svgio.Dom Svgio.Spec

variable {V : Type} [DecidableEq V]

theorem get_update (e : Dict V) (he : IsDict e) : ∀ (l : Dict V) (k : Str),
    dictGet (update l e) k = (dictGet e k).or (dictGet l k) := by
  induction e with
  | nil => intro l k; simp [update, dictGet]
  | cons a e ih =>
    intro l k
    obtain ⟨x, y⟩ := a
    have h1 : IsDict e := (List.nodup_cons.1 he).2
    have h2 : x ∉ e.map (·.1) := (List.nodup_cons.1 he).1
    show dictGet (update (dictSet l x y) e) k = _
    rw [ih h1, get_set, dictGet]
    by_cases h : x = k
    · subst h
      simp [get_none e x h2]
    · simp [h]

/-- the node and its ancestors all have attributes -/
def HaveAttrs (d : Dom V) (i : ℕ) : Prop := ∀ (j : ℕ) (n : NodeRec V), Below d i j → d.nodes[j]? = some n → n.attrs ≠ none

theorem ancestors_spec (d : Dom V) (hd : Good d) : ∀ (f i : ℕ), i < f → i < d.nodes.length → HaveAttrs d i →
    ∃ vals, (ancestors d f i).reverse.foldlM (fun values j =>
      match (d.nodes[j]?).bind (·.attrs) with
      | none => (.error .attributeError : Except PyErr (Dict V))
      | some a => .ok (update values a)) [] = .ok vals ∧ ∀ k v, dictGet vals k = some v ↔ Inherited d i k v := by
  intro f
  induction f with
  | zero => intro i h; omega
  | succ f ih =>
    intro i hf hi hA
    obtain ⟨n, hn⟩ : ∃ n, d.nodes[i]? = some n := ⟨_, List.getElem?_eq_getElem hi⟩
    obtain ⟨a, ha⟩ : ∃ a, n.attrs = some a := by
      cases h : n.attrs with
      | none => exact absurd h (hA i n .self hn)
      | some a => exact ⟨a, rfl⟩
    have hdict : IsDict a := hd.2 i n hn a ha
    rw [ancestors, List.reverse_cons, List.foldlM_append]
    by_cases h0 : i = 0
    · obtain ⟨r, hr, _, hp⟩ := hd.1.root
      subst h0
      rw [hn] at hr
      simp only [Option.some.injEq] at hr
      subst hr
      simp only [hn, Option.bind_some, hp, List.reverse_nil, List.foldlM_nil, List.foldlM_cons, ha]
      refine ⟨_, rfl, fun k v => ?_⟩
      rw [get_update a hdict]
      constructor
      · intro h
        simp only [dictGet, Option.or_none] at h
        exact .own hn ha h
      · rintro (⟨h1, h2, h3⟩ | ⟨h1, h2, h3, h4, h5⟩)
        · rw [hn] at h1; cases h1; rw [ha] at h2; cases h2; simp [h3]
        · rw [hn] at h1; cases h1; rw [hp] at h4; cases h4
    · obtain ⟨p, hpi, hp⟩ := hd.1.parent i n hn h0
      obtain ⟨vals, h1, h2⟩ := ih p (by omega) (by omega) (fun j m hj hm => hA j m (.up hn hp hj) hm)
      simp only [hn, Option.bind_some, hp, List.foldlM_cons, ha, List.foldlM_nil]
      refine ⟨update vals a, ?_, fun k v => ?_⟩
      · rw [h1]; rfl
      · rw [get_update a hdict]
        constructor
        · intro h
          cases hk : dictGet a k with
          | some w =>
            rw [hk] at h
            simp only [Option.some_or] at h
            exact .own hn ha (hk.trans h)
          | none =>
            rw [hk] at h
            simp only [Option.none_or] at h
            exact .up hn ha hk hp ((h2 k v).1 h)
        · rintro (⟨h1, h2', h3⟩ | ⟨h1, h2', h3, h4, h5⟩)
          · rw [hn] at h1; cases h1; rw [ha] at h2'; cases h2'; simp [h3]
          · rw [hn] at h1; cases h1; rw [hp] at h4; cases h4; rw [ha] at h2'; cases h2'
            rw [h3, Option.none_or]
            exact (h2 k v).2 h5

/-- C68: `get_values(node)` holds for each attribute the value from the closest of the node and its ancestors that has it, and
nothing for attributes that none of them has.

Partial: an image or mask made by a builder has no attributes, and `get_values` fails for it (`C68_image_wrong`). -/
theorem C68_inherited_partial (d : Dom V) (hd : Reachable d) (i : ℕ) (hi : i < d.nodes.length) (hA : HaveAttrs d i) :
    ∃ vals, getValues d i = .ok vals ∧ (∀ k v, dictGet vals k = some v ↔ Inherited d i k v) ∧
      ∀ k, dictGet vals k = none ↔ ¬ ∃ v, Inherited d i k v := by
  obtain ⟨vals, h1, h2⟩ := ancestors_spec d (reachable_good d hd) d.nodes.length i hi hi hA
  refine ⟨vals, h1, h2, fun k => ?_⟩
  cases h : dictGet vals k with
  | none =>
    simp only [true_iff, not_exists]
    intro v hv
    rw [← h2, h] at hv
    simp at hv
  | some v =>
    simp only [reduceCtorEq, false_iff, not_not]
    exact ⟨v, (h2 k v).1 h⟩

/-- every node of a loaded document has attributes, so C68 applies to it -/
theorem C68_loaded (x : Xml V) (evs : List (Ev V)) (he : evs.filter (· ≠ .ns) = events x) (d : Dom V) (h : load evs = .ok d)
    (i : ℕ) : HaveAttrs d i := by
  intro j n _ hj
  obtain ⟨h1, ⟨r, h2, _⟩, _, h4⟩ := C65_tree_partial x evs he d h
  cases j with
  | zero =>
    obtain ⟨_, hd⟩ := load_ok x evs he d h
    rw [hd, place_new] at hj
    simp at hj
    rw [← hj]
    simp
  | succ k =>
    have hk : k < (elements x).length := by
      have := (List.getElem?_eq_some_iff.1 hj).1
      omega
    obtain ⟨m, hm, _, hma⟩ := h4 k _ (List.getElem?_eq_getElem hk)
    rw [hj] at hm
    cases hm
    rw [hma]
    simp

/-- C68 fails for `document.image()`: `get_values` of the new node raises AttributeError. -/
theorem C68_image_wrong : ∃ d : Dom V, build newDocument 0 "image".toList [] [] = .ok d ∧
    getValues d 1 = .error .attributeError := by
  refine ⟨_, rfl, rfl⟩

example : ∃ d : Dom Str, load [.start "svg".toList [("fill".toList, "red".toList)], .start "g".toList [("x".toList, "1".toList)],
    .start "rect".toList [("x".toList, "2".toList)], .stop, .stop, .stop] = .ok d ∧ Inherited d 3 "fill".toList "red".toList ∧
    Inherited d 3 "x".toList "2".toList := by
  refine ⟨_, rfl, ?_, ?_⟩
  · exact .up rfl rfl (by decide +kernel) rfl (.up rfl rfl (by decide +kernel) rfl (.own rfl rfl (by decide +kernel)))
  · exact .own rfl rfl (by decide +kernel)

/-! ### builder arguments -/

theorem get_foldl_set (l : List (Str × V)) : ∀ (d : Dict V) (k : Str), (l.map (·.1)).Nodup →
    dictGet (l.foldl (fun d kv => dictSet d kv.1 kv.2) d) k = (dictGet l k).or (dictGet d k) :=
  fun d k h => get_update l h d k

theorem zip_keys_nodup (names : List Str) (h : names.Nodup) (args : List V) : ((names.zip args).map (·.1)).Nodup := by
  have : ((names.zip args).map (·.1)) <+: names := by
    induction names generalizing args with
    | nil => simp
    | cons a names ih =>
      cases args with
      | nil => simp
      | cons b args => simpa using ih (List.nodup_cons.1 h).2 args
  exact h.sublist this.sublist

theorem isDict_foldl_set (e : Dict V) : ∀ (l : Dict V), IsDict l → IsDict (e.foldl (fun d kv => dictSet d kv.1 kv.2) l) :=
  isDict_update e

/-- C81: a builder call makes a node of the class for its name. Keyword arguments become its attributes, and positional arguments
the geometric properties of the shape, in the order in which the documentation lists them; there are no other attributes.

Partial: not for circles with positional arguments (`C81_circle_wrong`), not for images and masks, nor for the classes whose builders
cannot be called with attributes (`C81_arguments_wrong`). Names with an underscore in the place of a hyphen: `C81_clip_path`. -/
theorem C81_builder_partial (d d' : Dom V) (i : ℕ) (name : Str) (args : List V) (kwargs : Dict V) (hk : IsDict kwargs)
    (h : build d i name args kwargs = .ok d') (hu : '_' ∉ name) (hn : name ∉ misspelt ++ rejected)
    (hc : classFor name ∉ [.image, .mask]) (ha : classFor name = .circle → args = []) :
    ∃ n a, d'.nodes[d.nodes.length]? = some n ∧ n.cls = classFor name ∧ n.attrs = some a ∧
      ∀ k, dictGet a k = (dictGet ((geometry (classFor name)).zip args) k).or (dictGet kwargs k) := by
  obtain ⟨n, c, a, h1, h2, h3, h4, rfl⟩ := build_eq _ _ _ _ _ _ h
  have hd : dashes name = name := by
    unfold dashes
    conv_rhs => rw [← List.map_id name]
    apply List.map_congr_left
    intro c hc
    have : c ≠ '_' := fun h => hu (h ▸ hc)
    simp [this]
  rw [hd] at h3
  clear hd hu
  generalize name = s at *
  simp only [List.mem_append, not_or] at hn
  have hmem : s ∈ bootstrap.map (·.1) := by
    by_contra hc
    rw [get_none _ _ hc] at h3
    simp at h3
  have hcls : c = classFor s := by
    have := show ∀ s ∈ bootstrap.map (·.1), s ∉ misspelt → dictGet bootstrap s = some (classFor s) by decide +kernel
    have := this s hmem hn.1
    rw [h3] at this
    simpa using this
  subst hcls
  have hna : needsArgs (classFor s) = false := by
    have := show ∀ s ∈ bootstrap.map (·.1), s ∉ rejected → s ∉ misspelt → needsArgs (classFor s) = false by decide +kernel
    exact this s hmem hn.2 hn.1
  simp only [List.mem_cons, List.not_mem_nil, or_false] at hc
  rw [construct, if_neg hc, hna, if_neg (by simp)] at h4
  simp only [Except.ok.injEq] at h4
  refine ⟨_, _, by rw [append_get, if_pos rfl], rfl, h4.symm, fun k => ?_⟩
  generalize classFor s = c at *
  have hp : (positional c).Nodup := by cases c <;> decide +kernel
  have hz := zip_keys_nodup _ hp args
  rw [get_update _ (isDict_foldl_set _ _ hk), get_foldl_set _ _ _ hz]
  simp only [dictGet, Option.or_none]
  congr 2
  by_cases hcirc : c = .circle
  · rw [ha hcirc]; simp
  · congr 1
    cases c <;> first | rfl | exact absurd rfl hcirc

/-- C81 fails for circles: `document.circle(1, 2, 3)` has no center. -/
theorem C81_circle_wrong (cx cy r : V) : ∃ d : Dom V, build newDocument 0 "circle".toList [cx, cy, r] [] = .ok d ∧
    property d 1 "cx".toList none = .ok none ∧ property d 1 "x".toList none = .ok (some cx) := by
  refine ⟨_, rfl, rfl, rfl⟩

/-- C81 fails: builders of these classes do not accept attributes: `document.defs(id="a")` raises TypeError. -/
theorem C81_arguments_wrong (v : V) (name : Str)
    (h : name ∈ ["defs".toList, "marker".toList, "metadata".toList, "style".toList, "symbol".toList, "image".toList, "mask".toList]) :
    build newDocument 0 name [] [("id".toList, v)] = .error .typeError := by
  simp only [List.mem_cons, List.not_mem_nil, or_false] at h
  rcases h with rfl | rfl | rfl | rfl | rfl | rfl | rfl <;> rfl

/-- C81: an underscore in the builder's name stands for a hyphen: `clip_path` makes a clipPath node with the keyword arguments as
attributes, just as the name `clip-path` does. -/
theorem C81_clip_path (d : Dom V) (i : ℕ) (hi : ∃ n, d.nodes[i]? = some n ∧ n.cls ≠ .mask) (kwargs : Dict V) :
    build d i "clip_path".toList [] kwargs = build d i "clip-path".toList [] kwargs ∧
    ∃ d', build d i "clip_path".toList [] kwargs = .ok d' ∧
      ∃ n, d'.nodes[d.nodes.length]? = some n ∧ n.cls = .clipPath := by
  obtain ⟨n, h1, h2⟩ := hi
  have e1 : dictGet bootstrap (dashes "clip_path".toList) = some .clipPath := by decide +kernel
  have e2 : dictGet bootstrap (dashes "clip-path".toList) = some .clipPath := by decide +kernel
  generalize "clip_path".toList = a at *
  generalize "clip-path".toList = b at *
  simp only [build, h1, if_neg h2, e1, e2, true_and]
  have h3 : ∃ at', construct .clipPath ([] : List V) kwargs = .ok at' := ⟨_, rfl⟩
  obtain ⟨at', h3⟩ := h3
  rw [h3]
  exact ⟨_, rfl, _, by rw [append_get, if_pos rfl], rfl⟩

example : ∃ n, (newDocument : Dom Str).nodes[0]? = some n ∧ n.cls ≠ .mask := ⟨_, rfl, by decide⟩
example : "clip_path".toList ≠ "clip-path".toList := by decide

example : "rect".toList ∉ misspelt ++ rejected ∧ classFor "rect".toList ∉ [.image, .mask] := by decide +kernel

/-! ### geometric properties -/

/-- C82: `rect.x`, `line.x1` and so on are the element's own attribute if it has one and its ancestors do not matter then.

Partial: without an attribute of its own, the element takes the attribute of an ancestor instead of the default
(`C82_inherited_wrong`). -/
theorem C82_own_partial (d : Dom V) (hd : Reachable d) (i : ℕ) (hA : HaveAttrs d i) (n : NodeRec V) (hn : d.nodes[i]? = some n)
    (a : Dict V) (ha : n.attrs = some a) (name : Str) (default : Option V) :
    (∀ v, dictGet a name = some v → property d i name default = .ok (some v)) ∧
    ((∀ j m b, Below d i j → d.nodes[j]? = some m → m.attrs = some b → dictGet b name = none) →
      property d i name default = .ok default) := by
  have hi : i < d.nodes.length := (List.getElem?_eq_some_iff.1 hn).1
  obtain ⟨vals, h1, h2, h3⟩ := C68_inherited_partial d hd i hi hA
  simp only [property, h1]
  constructor
  · intro v hv
    rw [(h2 name v).2 (.own hn ha hv)]
    rfl
  · intro hall
    have : dictGet vals name = none := by
      rw [h3]
      rintro ⟨v, hv⟩
      clear h1 h2 h3 hi hn ha hA
      induction hv with
      | own h1 h2 h3 =>
        have := hall _ _ _ .self h1 h2
        rw [h3] at this; simp at this
      | up h1 h2 h3 h4 _ ih => exact ih (fun j m b hj => hall j m b (.up h1 h4 hj))
    rw [this]
    rfl

/-- C82 fails: a rectangle without `x` inside an `svg` with `x="5"` has `x` 5 instead of the default 0. -/
theorem C82_inherited_wrong : ∃ d : Dom Str, load [.start "svg".toList [("x".toList, "5".toList)], .start "rect".toList [], .stop,
    .stop] = .ok d ∧ property d 2 "x".toList (some "0".toList) = .ok (some "5".toList) := by
  refine ⟨_, rfl, ?_⟩; decide +kernel

end Svgio.Props
