/-! Small list lemmas. -/

namespace Svgio

variable {α : Type _}

theorem takeWhile_all {p : α → Bool} : ∀ {l : List α}, (∀ c ∈ l, p c = true) → l.takeWhile p = l
  | [], _ => rfl
  | c :: l, h => by
    simp [List.takeWhile, h c (by simp), takeWhile_all (l := l) (fun c hc => h c (by simp [hc]))]

theorem dropWhile_all {p : α → Bool} : ∀ {l : List α}, (∀ c ∈ l, p c = true) → l.dropWhile p = []
  | [], _ => rfl
  | c :: l, h => by
    simp [List.dropWhile, h c (by simp), dropWhile_all (l := l) (fun c hc => h c (by simp [hc]))]

theorem dropWhile_none {p : α → Bool} : ∀ {l : List α}, (∀ c ∈ l, p c = false) → l.dropWhile p = l
  | [], _ => rfl
  | c :: l, h => by simp [List.dropWhile, h c (by simp)]

/-- `takeWhile` stops at the first element of a tail that fails -/
theorem takeWhile_append_stop {p : α → Bool} {l r : List α} (h : ∀ c ∈ l, p c = true)
    (hr : ∀ c ∈ r.head?, p c = false) : (l ++ r).takeWhile p = l := by
  induction l with
  | nil => cases r with
    | nil => rfl
    | cons c r => simp [List.takeWhile, hr c (by simp)]
  | cons c l ih =>
    simp only [List.cons_append, List.takeWhile, h c (by simp)]
    rw [ih (fun c hc => h c (by simp [hc]))]

theorem dropWhile_append_stop {p : α → Bool} {l r : List α} (h : ∀ c ∈ l, p c = true)
    (hr : ∀ c ∈ r.head?, p c = false) : (l ++ r).dropWhile p = r := by
  induction l with
  | nil => cases r with
    | nil => rfl
    | cons c r => simp [List.dropWhile, hr c (by simp)]
  | cons c l ih =>
    simp only [List.cons_append, List.dropWhile, h c (by simp)]
    rw [ih (fun c hc => h c (by simp [hc]))]

theorem dropWhile_length_le {p : α → Bool} (l : List α) : (l.dropWhile p).length ≤ l.length := by
  induction l with
  | nil => simp
  | cons c l ih =>
    simp only [List.dropWhile]
    split
    · simp; omega
    · simp

theorem mem_takeWhile_pos {p : α → Bool} {l : List α} {c : α} (h : c ∈ l.takeWhile p) : p c = true := by
  induction l with
  | nil => simp at h
  | cons d l ih =>
    simp only [List.takeWhile] at h
    split at h
    · rcases List.mem_cons.mp h with h | h
      · rw [h]; assumption
      · exact ih h
    · simp at h

end Svgio
