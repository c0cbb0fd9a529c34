import Verif.Model.Terminal

/-!
# C89: the terminal shows messages above the line that the user is typing
-/

namespace WS.Terminal

namespace Spec

/-- The line that displays a string. -/
def text (s : PyStr) : Line := fun j => s.getD j 32

/-- All lines, including those that scrolled off the screen. -/
def line (t : Term) (i : Nat) : Line :=
  match t.scrollback[i]? with
  | some l => l
  | none => t.rows (i - t.scrollback.length)

/-- The line of the cursor. -/
def pos (t : Term) : Nat := t.scrollback.length + t.row

/-- The cursor is on the screen, below all text. -/
structure Ready (t : Term) : Prop where
  height : 2 ≤ t.height
  row : t.row < t.height
  col : t.col < t.width
  wrap : t.wrap = false
  mode : t.mode = .ground
  below : ∀ i, t.row < i → i < t.height → t.rows i = blank

/-- Strings that fit in a line. -/
structure Fits (t : Term) (s : PyStr) : Prop where
  printable : ∀ c ∈ s, Term.isPrintable c = true
  length : s.length ≤ t.width

/-- What the user should see: complete lines, and the line that they're typing. -/
structure Transcript where
  lines : List PyStr := []
  current : PyStr := []

/-- What is displayed should go above the line that the user is typing. -/
def Transcript.step (r : Transcript) : Output → Transcript
  | .message (.text s) => { r with lines := r.lines ++ [p!"< " ++ s] }
  | .message (.binary b) => { r with lines := r.lines ++ [p!"< (binary) " ++ hex b] }
  | .connected s => { r with lines := r.lines ++ [s] }
  | .key c => { r with current := r.current ++ [c] }
  | .enter => { lines := r.lines ++ [r.current], current := p!"> " }
  | .last s => { lines := r.lines ++ [s], current := [] }

/-- The terminal shows a transcript from line `p` on. -/
structure Shows (t : Term) (p : Nat) (r : Transcript) : Prop where
  ready : Ready t
  pos : pos t = p + r.lines.length
  col : t.col = r.current.length
  lines : ∀ i s, r.lines[i]? = some s → line t (p + i) = text s
  current : line t (p + r.lines.length) = text r.current

/-- The text that an output adds fits in the terminal, and the user types a line that's shorter than a line of the terminal. -/
def OutputFits (width : Nat) (r : Transcript) : Output → Prop
  | .message m => (∀ c ∈ display m, Term.isPrintable c = true) ∧ (display m).length ≤ width
  | .connected s | .last s => (∀ c ∈ s, Term.isPrintable c = true) ∧ s.length ≤ width
  | .key c => Term.isPrintable c = true ∧ r.current.length + 1 < width
  | .enter => 2 < width

/-- All outputs fit. -/
def AllFit (width : Nat) : Transcript → List Output → Prop
  | _, [] => True
  | r, o :: os => OutputFits width r o ∧ AllFit width (r.step o) os

end Spec

open Spec

namespace Term

theorem feedAll_append (t : Term) (a b : PyStr) : t.feedAll (a ++ b) = (t.feedAll a).feedAll b := by
  simp [feedAll, List.foldl_append]

theorem not_printable_ctrl {c : Nat} (h : isPrintable c = true) : c ≠ 27 ∧ c ≠ 10 ∧ c ≠ 13 := by
  simp only [isPrintable, Bool.and_eq_true, decide_eq_true_eq] at h
  omega

/-- A line after writing `s` from column `col` on. -/
def over (l : Line) (col : Nat) (s : PyStr) : Line := fun j => if col ≤ j ∧ j < col + s.length then s.getD (j - col) 32 else l j

theorem over_nil (l : Line) (col : Nat) : over l col [] = l := by
  funext j; simp only [over, List.length_nil]; rw [if_neg (by omega)]

theorem over_cons (l : Line) (col : Nat) (c : Nat) (s : PyStr) :
    over (fun j => if j = col then c else l j) (col + 1) s = over l col (c :: s) := by
  funext j
  simp only [over, List.length_cons]
  by_cases h : j = col
  · subst h
    rw [if_neg (by omega), if_pos rfl, if_pos (by omega)]; simp
  · by_cases h2 : col + 1 ≤ j ∧ j < col + 1 + s.length
    · rw [if_pos h2, if_pos (by omega)]
      obtain ⟨k, rfl⟩ : ∃ k, j = col + (k + 1) := ⟨j - col - 1, by omega⟩
      rw [show col + (k + 1) - (col + 1) = k by omega, show col + (k + 1) - col = k + 1 by omega]
      simp
    · rw [if_neg h2, if_neg h, if_neg (by omega)]

theorem over_blank (s : PyStr) : over blank 0 s = text s := by
  funext j
  simp only [over, text, blank, Nat.zero_le, true_and, Nat.zero_add, Nat.sub_zero]
  split
  · rfl
  · next h => simp [List.getD_eq_getElem?_getD, List.getElem?_eq_none (by omega : s.length ≤ j)]

theorem over_text (s : PyStr) (c : Nat) : over (text s) s.length [c] = text (s ++ [c]) := by
  funext j
  simp only [over, text, List.length_singleton]
  by_cases h : j = s.length
  · subst h; rw [if_pos (by omega)]; simp
  · rw [if_neg (by omega)]
    simp only [List.getD_eq_getElem?_getD]
    by_cases h2 : j < s.length
    · rw [List.getElem?_append_left h2]
    · rw [List.getElem?_eq_none (by omega), List.getElem?_eq_none (by simp; omega)]

/-- Printable characters that fit in the current line. -/
theorem feedAll_text {s : PyStr} (hs : ∀ c ∈ s, isPrintable c = true) : ∀ {t : Term}, t.mode = .ground → t.wrap = false →
    t.col + s.length ≤ t.width →
    ∃ col wrap, t.feedAll s = { t with rows := fun i => if i = t.row then over (t.rows i) t.col s else t.rows i, col, wrap } ∧
      (t.col + s.length < t.width → col = t.col + s.length ∧ wrap = false) := by
  induction s with
  | nil =>
    intro t hm hw hl
    refine ⟨t.col, t.wrap, ?_, fun _ => ⟨rfl, hw⟩⟩
    simp [feedAll, over_nil]
  | cons c s ih =>
    intro t hm hw hl
    have hc := hs c (by simp)
    obtain ⟨h1, h2, h3⟩ := not_printable_ctrl hc
    have hf : t.feed c = t.put c := by simp [feed, hm, h1, h2, h3, hc]
    simp only [feedAll, List.foldl_cons, hf]
    simp only [List.length_cons] at hl
    by_cases hcol : t.col + 1 < t.width
    · have hp : t.put c = { t with rows := fun i => if i = t.row then fun j => if j = t.col then c else t.rows i j else t.rows i
                                   col := t.col + 1 } := by
        simp [put, hw, hcol]
      rw [hp]
      obtain ⟨col, wrap, g1, g2⟩ := ih (fun c h => hs c (by simp [h]))
        (t := { t with rows := fun i => if i = t.row then fun j => if j = t.col then c else t.rows i j else t.rows i
                       col := t.col + 1 }) hm hw (by simp only; omega)
      refine ⟨col, wrap, ?_, fun h => ?_⟩
      · simp only [feedAll] at g1
        rw [g1]
        simp only [Term.mk.injEq, true_and, and_true]
        funext i
        split
        · rw [over_cons]
        · rfl
      · have := g2 (by simp only [List.length_cons] at h ⊢; omega)
        refine ⟨?_, this.2⟩
        rw [this.1]; simp only [List.length_cons]; omega
    · have : s = [] := by
        cases s with
        | nil => rfl
        | cons => simp at hl; omega
      subst this
      refine ⟨t.col, true, ?_, fun h => ?_⟩
      · simp only [List.foldl_nil, put, hw, Bool.false_eq_true, if_false]
        rw [if_neg hcol]
        simp only [Term.mk.injEq, true_and, and_true]
        funext i
        split
        · rw [← over_cons, over_nil]
        · rfl
      · simp at h; omega

/-- The terminal after `print_during_input`. -/
theorem during_eq {t : Term} (h : Ready t) {s : PyStr} (hs : Fits t s) : ∃ saved,
    t.feedAll (printDuringInput s) =
      if t.row + 1 < t.height then
        { t with rows := fun i => if i < t.row then t.rows i else if i = t.row then text s else t.rows (i - 1)
                 row := t.row + 1, saved }
      else
        { t with scrollback := t.scrollback ++ [t.rows 0]
                 rows := fun i => if i + 1 < t.row then t.rows (i + 1) else if i + 1 = t.row then text s
                   else if i = t.height then blank else t.rows i, saved } := by
  obtain ⟨h1, h2, h3, h4, h5, h6⟩ := h
  refine ⟨(t.row, t.col, false), ?_⟩
  have hpre : t.feedAll ([27, 55] ++ [10] ++ [27, 91, 65] ++ [27, 91, 76]) =
      if t.row + 1 < t.height then
        { t with rows := fun i => if i < t.row then t.rows i else if i = t.row then blank else t.rows (i - 1)
                 saved := (t.row, t.col, false), col := 0 }
      else
        { t with scrollback := t.scrollback ++ [t.rows 0], saved := (t.row, t.col, false), row := t.row - 1, col := 0
                 rows := fun i => if i + 1 < t.row then t.rows (i + 1) else if i + 1 = t.row then blank
                   else if i = t.height then blank else t.rows i } := by
    have a1 : ∀ u : Term, u.mode = .ground → u.feedAll [27, 55] = { u with saved := (u.row, u.col, u.wrap) } := by
      intro u hm; cases u; simp only at hm; subst hm; simp [feedAll, feed]
    have a2 : ∀ u : Term, u.mode = .ground → u.feedAll [10] = u.newline := by
      intro u hm; simp [feedAll, feed, hm]
    have a3 : ∀ u : Term, u.mode = .ground → u.feedAll [27, 91, 65] = { u with row := u.row - 1, wrap := false } := by
      intro u hm; cases u; simp only at hm; subst hm; simp [feedAll, feed]
    have a4 : ∀ u : Term, u.mode = .ground → u.feedAll [27, 91, 76] =
        { u with rows := fun i => if i < u.row then u.rows i else if i = u.row then blank else u.rows (i - 1)
                 col := 0, wrap := false } := by
      intro u hm; cases u; simp only at hm; subst hm; simp [feedAll, feed]
    rw [feedAll_append, feedAll_append, feedAll_append, a1 _ h5, a2 _ (by exact h5)]
    unfold newline
    simp only
    by_cases hr : t.row + 1 < t.height
    · rw [if_pos hr, if_pos hr, a3 _ (by exact h5), a4 _ (by exact h5)]
      simp only [h4, Nat.add_sub_cancel]
    · rw [if_neg hr, if_neg hr, a3 _ (by exact h5), a4 _ (by exact h5)]
      simp only [Term.mk.injEq, true_and, and_true, h4]
      funext i
      grind
  have hpost : ∀ u : Term, u.mode = .ground → u.saved.2.2 = false → u.row + 1 < u.height →
      u.feedAll ([10] ++ [27, 56] ++ [27, 91, 66]) =
        { u with row := min (u.saved.1 + 1) (u.height - 1), col := u.saved.2.1, wrap := false } := by
    intro u hm hv hr
    cases u with
    | mk height width sb rows row col wrap saved mode =>
      simp only at hm hv hr
      subst hm
      simp [feedAll, feed, newline, hr]
  rw [show printDuringInput s = ([27, 55] ++ [10] ++ [27, 91, 65] ++ [27, 91, 76]) ++ s ++ ([10] ++ [27, 56] ++ [27, 91, 66]) by
    simp [printDuringInput], feedAll_append _ (_ ++ s), feedAll_append _ _ s, hpre]
  by_cases hr : t.row + 1 < t.height
  · rw [if_pos hr, if_pos hr]
    obtain ⟨col, wrap, g, -⟩ := feedAll_text hs.printable
      (t := { t with rows := fun i => if i < t.row then t.rows i else if i = t.row then blank else t.rows (i - 1)
                     saved := (t.row, t.col, false), col := 0 }) h5 h4 (by simpa using hs.length)
    rw [g]
    refine (hpost _ (by exact h5) rfl (by exact hr)).trans ?_
    simp only [Term.mk.injEq, true_and, and_true, h4]
    refine ⟨?_, by omega⟩
    funext i
    by_cases hi : i = t.row
    · subst hi; simp [over_blank]
    · simp [hi]
  · rw [if_neg hr, if_neg hr]
    obtain ⟨col, wrap, g, -⟩ := feedAll_text hs.printable
      (t := { t with scrollback := t.scrollback ++ [t.rows 0], saved := (t.row, t.col, false), row := t.row - 1, col := 0
                     rows := fun i => if i + 1 < t.row then t.rows (i + 1) else if i + 1 = t.row then blank
                       else if i = t.height then blank else t.rows i }) h5 h4 (by simpa using hs.length)
    rw [g]
    refine (hpost _ (by exact h5) rfl (by simp only; omega)).trans ?_
    simp only [Term.mk.injEq, true_and, and_true, h4]
    refine ⟨?_, by omega⟩
    funext i
    by_cases hi : i + 1 = t.row
    · have : i = t.row - 1 := by omega
      simp only [hi]
      simp [this, over_blank]
    · have : i ≠ t.row - 1 := by omega
      simp [hi, this]

/-- The terminal after `print_over_input`. -/
theorem over_eq {t : Term} (h : Ready t) {s : PyStr} (hs : Fits t s) :
    t.feedAll (printOverInput s) =
      ({ t with rows := fun i => if i = t.row then text s else t.rows i } : Term).newline := by
  obtain ⟨h1, h2, h3, h4, h5, h6⟩ := h
  have hpre : t.feedAll ([13] ++ [27, 91, 75]) =
      { t with rows := fun i => if i = t.row then blank else t.rows i, col := 0 } := by
    cases t with
    | mk height width sb rows row col wrap saved mode =>
      simp only at h1 h2 h3 h4 h5 h6 ⊢
      subst h4 h5
      simp [feedAll, feed]
      rfl
  rw [show printOverInput s = ([13] ++ [27, 91, 75]) ++ s ++ [10] by simp [printOverInput], feedAll_append _ (_ ++ s), feedAll_append _ _ s, hpre]
  obtain ⟨col, wrap, g, -⟩ := feedAll_text hs.printable
    (t := { t with rows := fun i => if i = t.row then blank else t.rows i, col := 0 }) h5 h4 (by simpa using hs.length)
  rw [g]
  have : (fun i => if i = t.row then over (if i = t.row then blank else t.rows i) 0 s else if i = t.row then blank else t.rows i) =
      fun i => if i = t.row then text s else t.rows i := by
    funext i
    by_cases hi : i = t.row
    · simp [hi, over_blank]
    · simp [hi]
  simp only [this]
  simp [feedAll, feed, h5, newline]

end Term

open Term

theorem line_rows {t : Term} (i : Nat) : line t (t.scrollback.length + i) = t.rows i := by
  simp [line]

theorem line_sb {t : Term} {i : Nat} (h : i < t.scrollback.length) : line t i = t.scrollback[i] := by
  simp [line, h]

/-- A new line, below all text. -/
theorem newline_spec {t : Term} (hh : 2 ≤ t.height) (hr : t.row < t.height) (hw : 0 < t.width) (hm : t.mode = .ground)
    (hb : ∀ i, t.row < i → i < t.height → t.rows i = blank) :
    Ready t.newline ∧ pos t.newline = pos t + 1 ∧ t.newline.col = 0 ∧ t.newline.width = t.width ∧
      (∀ i, i ≤ pos t → line t.newline i = line t i) ∧ line t.newline (pos t + 1) = blank := by
  by_cases h : t.row + 1 < t.height
  · have he : t.newline = { t with row := t.row + 1, col := 0, wrap := false } := by simp [newline, h]
    rw [he]
    refine ⟨⟨hh, h, hw, rfl, hm, fun i h1 h2 => hb i (by simp only at h1; omega) h2⟩, rfl, rfl, rfl, fun i _ => rfl, ?_⟩
    have := line_rows (t := t) (t.row + 1)
    rw [pos, Nat.add_assoc]
    exact this.trans (hb _ (by omega) h)
  · have he : t.newline = { t with scrollback := t.scrollback ++ [t.rows 0]
                                   rows := fun i => if i + 1 = t.height then blank else t.rows (i + 1)
                                   col := 0, wrap := false } := by simp [newline, h]
    rw [he]
    refine ⟨⟨hh, hr, hw, rfl, hm, fun i h1 h2 => ?_⟩, ?_, rfl, rfl, fun i hi => ?_, ?_⟩
    · simp only at h1 h2; omega
    · simp only [pos, List.length_append, List.length_singleton]; omega
    · simp only [pos] at hi
      simp only [line]
      by_cases h1 : i < t.scrollback.length
      · rw [List.getElem?_append_left h1, List.getElem?_eq_getElem h1]
      · by_cases h2 : i = t.scrollback.length
        · subst h2; simp
        · rw [List.getElem?_eq_none (by simp; omega), List.getElem?_eq_none (by omega)]
          simp only [List.length_append, List.length_singleton]
          rw [if_neg (by omega), show i - (t.scrollback.length + 1) + 1 = i - t.scrollback.length by omega]
    · simp only [line, pos]
      rw [List.getElem?_eq_none (by simp only [List.length_append, List.length_singleton]; omega)]
      simp only [List.length_append, List.length_singleton]
      rw [if_pos (by omega)]

/-- **C89.** `print_during_input` inserts a line above the line that the user is typing: it moves down by one line, and so does the
cursor; nothing else changes. -/
theorem C89_during {t : Term} (h : Ready t) {s : PyStr} (hs : Fits t s) :
    Ready (t.feedAll (printDuringInput s)) ∧ pos (t.feedAll (printDuringInput s)) = pos t + 1 ∧
      (t.feedAll (printDuringInput s)).col = t.col ∧ (t.feedAll (printDuringInput s)).width = t.width ∧
      (∀ i, i < pos t → line (t.feedAll (printDuringInput s)) i = line t i) ∧
      line (t.feedAll (printDuringInput s)) (pos t) = text s ∧
      line (t.feedAll (printDuringInput s)) (pos t + 1) = line t (pos t) := by
  obtain ⟨saved, he⟩ := during_eq h hs
  obtain ⟨h1, h2, h3, h4, h5, h6⟩ := h
  rw [he]
  have hp : line t (pos t) = t.rows t.row := line_rows _
  by_cases hr : t.row + 1 < t.height
  · rw [if_pos hr]
    refine ⟨⟨h1, hr, h3, h4, h5, fun i g1 g2 => ?_⟩, rfl, rfl, rfl, fun i hi => ?_, ?_, ?_⟩
    · simp only at g1 g2 ⊢
      rw [if_neg (by omega), if_neg (by omega)]
      exact h6 _ (by omega) (by omega)
    · simp only [pos] at hi
      simp only [line]
      split
      · rfl
      · next hn =>
        have := List.getElem?_eq_none_iff.1 hn
        rw [if_pos (by omega)]
    · refine (line_rows (t := { t with rows := _, row := _, saved }) t.row).trans ?_
      simp
    · rw [hp]
      refine (line_rows (t := { t with rows := _, row := _, saved }) (t.row + 1)).trans ?_
      simp
      intro h; omega
  · rw [if_neg hr]
    refine ⟨⟨h1, h2, h3, h4, h5, fun i g1 g2 => ?_⟩, ?_, rfl, rfl, fun i hi => ?_, ?_, ?_⟩
    · simp only at g1 g2; omega
    · simp only [pos, List.length_append, List.length_singleton]; omega
    · simp only [pos] at hi
      simp only [line]
      by_cases k1 : i < t.scrollback.length
      · rw [List.getElem?_append_left k1, List.getElem?_eq_getElem k1]
      · by_cases k2 : i = t.scrollback.length
        · subst k2; simp
        · rw [List.getElem?_eq_none (by simp; omega), List.getElem?_eq_none (by omega)]
          simp only [List.length_append, List.length_singleton]
          rw [if_pos (by omega), show i - (t.scrollback.length + 1) + 1 = i - t.scrollback.length by omega]
    · simp only [line, pos]
      rw [List.getElem?_eq_none (by simp; omega)]
      simp only [List.length_append, List.length_singleton]
      rw [if_neg (by omega), if_pos (by omega)]
    · rw [hp]
      simp only [line, pos]
      rw [List.getElem?_eq_none (by simp only [List.length_append, List.length_singleton]; omega)]
      simp only [List.length_append, List.length_singleton]
      rw [if_neg (by omega), if_neg (by omega), if_neg (by omega)]
      congr 1; omega

/-- **C89.** `print_over_input` replaces the line that the user is typing. -/
theorem C89_over {t : Term} (h : Ready t) {s : PyStr} (hs : Fits t s) :
    Ready (t.feedAll (printOverInput s)) ∧ pos (t.feedAll (printOverInput s)) = pos t + 1 ∧
      (t.feedAll (printOverInput s)).col = 0 ∧ (t.feedAll (printOverInput s)).width = t.width ∧
      (∀ i, i < pos t → line (t.feedAll (printOverInput s)) i = line t i) ∧
      line (t.feedAll (printOverInput s)) (pos t) = text s ∧
      line (t.feedAll (printOverInput s)) (pos t + 1) = blank := by
  rw [over_eq h hs]
  obtain ⟨h1, h2, h3, h4, h5, h6⟩ := h
  obtain ⟨g1, g2, g3, g4, g5, g6⟩ := newline_spec (t := { t with rows := fun i => if i = t.row then text s else t.rows i })
    h1 h2 (Nat.lt_of_le_of_lt (Nat.zero_le _) h3) h5 (fun i k1 k2 => by simp only at k1 k2 ⊢; rw [if_neg (by omega)]; exact h6 i k1 k2)
  refine ⟨g1, g2, g3, g4, fun i hi => ?_, ?_, g6⟩
  · rw [g5 i (Nat.le_of_lt hi)]
    simp only [pos] at hi
    simp only [line]
    split
    · rfl
    · next hn =>
      have := List.getElem?_eq_none_iff.1 hn
      rw [if_neg (by omega)]
  · refine (g5 (pos t) (Nat.le_refl _)).trans ?_
    refine (line_rows (t := { t with rows := _ }) t.row).trans ?_
    simp

/-- Printable characters at the end of the line that the user is typing. -/
theorem typed_spec {t : Term} (h : Ready t) {s cur : PyStr} (hs : ∀ c ∈ s, isPrintable c = true) (hc : t.col = cur.length)
    (hl : cur.length + s.length < t.width) (hcur : line t (pos t) = text cur) :
    Ready (t.feedAll s) ∧ pos (t.feedAll s) = pos t ∧ (t.feedAll s).col = (cur ++ s).length ∧ (t.feedAll s).width = t.width ∧
      (∀ i, i < pos t → line (t.feedAll s) i = line t i) ∧ line (t.feedAll s) (pos t) = text (cur ++ s) := by
  obtain ⟨h1, h2, h3, h4, h5, h6⟩ := h
  obtain ⟨col, wrap, g1, g2⟩ := feedAll_text hs h5 h4 (by omega)
  obtain ⟨rfl, rfl⟩ := g2 (by omega)
  rw [g1]
  refine ⟨⟨h1, h2, ?_, rfl, h5, fun i k1 k2 => ?_⟩, rfl, ?_, rfl, fun i hi => ?_, ?_⟩
  · simp only; omega
  · simp only at k1 k2 ⊢
    rw [if_neg (by omega)]; exact h6 i k1 k2
  · simp [hc]
  · simp only [pos] at hi
    simp only [line]
    split
    · rfl
    · next hn =>
      have := List.getElem?_eq_none_iff.1 hn
      rw [if_neg (by omega)]
  · refine (line_rows (t := { t with rows := _, col := _, wrap := _ }) t.row).trans ?_
    rw [pos, line_rows] at hcur
    simp only [if_true, hcur, hc]
    funext j
    simp only [over, text, List.getD_eq_getElem?_getD]
    by_cases k1 : j < cur.length
    · rw [if_neg (by omega), List.getElem?_append_left k1]
    · rw [List.getElem?_append_right (by omega)]
      by_cases k2 : j < cur.length + s.length
      · rw [if_pos (by omega)]
      · rw [if_neg (by omega), List.getElem?_eq_none (by omega), List.getElem?_eq_none (by omega)]

/-- A complete line was added above the line that the user is typing. -/
theorem Spec.Shows.insert {t t' : Term} {p : Nat} {r : Transcript} (h : Shows t p r) {s cur : PyStr} (hr : Ready t')
    (hp : Spec.pos t' = Spec.pos t + 1) (hc : t'.col = cur.length) (hl : ∀ i, i < Spec.pos t → line t' i = line t i)
    (hs : line t' (Spec.pos t) = text s) (hcur : line t' (Spec.pos t + 1) = text cur) :
    Shows t' p { lines := r.lines ++ [s], current := cur } := by
  have h2 := h.pos
  refine ⟨hr, ?_, hc, fun i s' hi => ?_, ?_⟩
  · rw [hp, h2]; simp; omega
  · by_cases hlt : i < r.lines.length
    · rw [List.getElem?_append_left hlt] at hi
      rw [hl _ (by omega)]
      exact h.lines i s' hi
    · simp only at hi
      have : i = r.lines.length := by
        have := (List.getElem?_eq_some_iff.1 hi).1
        simp at this; omega
      subst this
      simp at hi
      subst hi
      rw [← h2]; exact hs
  · rw [show p + (r.lines ++ [s]).length = Spec.pos t + 1 by simp; omega]
    exact hcur

theorem Spec.Shows.during {t : Term} {p : Nat} {r : Transcript} (h : Shows t p r) {s : PyStr}
    (hs : ∀ c ∈ s, isPrintable c = true) (hl : s.length ≤ t.width) :
    Shows (t.feedAll (printDuringInput s)) p { r with lines := r.lines ++ [s] } ∧
      (t.feedAll (printDuringInput s)).width = t.width := by
  obtain ⟨g1, g2, g3, g4, g5, g6, g7⟩ := C89_during h.ready (s := s) ⟨hs, hl⟩
  refine ⟨h.insert g1 g2 (g3.trans h.col) g5 g6 (g7.trans ?_), g4⟩
  rw [h.pos]; exact h.current

theorem Spec.Shows.step {t : Term} {p : Nat} {r : Transcript} (h : Shows t p r) {o : Output} (ho : OutputFits t.width r o) :
    Shows (t.feedAll o.chars) p (r.step o) ∧ (t.feedAll o.chars).width = t.width := by
  cases o with
  | message m => cases m <;> exact h.during ho.1 ho.2
  | connected s => exact h.during ho.1 ho.2
  | key c =>
    obtain ⟨g1, g2, g3, g4, g5, g6⟩ := typed_spec h.ready (s := [c]) (cur := r.current) (by simpa using ho.1) h.col
      (by simpa using ho.2) (by rw [h.pos]; exact h.current)
    refine ⟨⟨g1, g2.trans h.pos, g3, fun i s hi => ?_, ?_⟩, g4⟩
    · have : i < r.lines.length := (List.getElem?_eq_some_iff.1 hi).1
      exact (g5 _ (by rw [h.pos]; omega)).trans (h.lines i s hi)
    · exact (congrArg _ h.pos.symm).trans g6
  | enter =>
    simp only [Output.chars, feedAll_append]
    have hm := h.ready.mode
    rw [show t.feedAll [10] = t.newline by simp [feedAll, feed, hm]]
    obtain ⟨g1, g2, g3, g4, g5, g6⟩ := newline_spec h.ready.height h.ready.row (Nat.lt_of_le_of_lt (Nat.zero_le _) h.ready.col)
      h.ready.mode h.ready.below
    have hw : 2 < t.width := ho
    obtain ⟨k1, k2, k3, k4, k5, k6⟩ := typed_spec g1 (s := p!"> ") (cur := []) (by decide) g3 (by simp [g4]; exact hw)
      (by rw [g2, g6]; rfl)
    refine ⟨h.insert k1 (k2.trans g2) k3 (fun i hi => (k5 i (by omega)).trans (g5 i (by omega))) ?_ ?_, k4.trans g4⟩
    · rw [k5 _ (by omega), g5 _ (Nat.le_refl _), h.pos]; exact h.current
    · rw [← g2]; exact k6
  | last s =>
    obtain ⟨g1, g2, g3, g4, g5, g6, g7⟩ := C89_over h.ready (s := s) ⟨ho.1, ho.2⟩
    exact ⟨h.insert g1 g2 g3 g5 g6 g7, g4⟩

/-- **C89, partial.** Whatever the order of messages, keys and lines: the terminal shows all lines in order, each message once, above
the line that the user is typing, which is intact.  What is missing: messages that are longer than a line or contain control
characters, see `C89_multiline_false` and `C89_escape_false`. -/
theorem C89_session_partial : ∀ {t : Term} {p : Nat} {r : Transcript} {os : List Output}, Shows t p r → AllFit t.width r os →
    Shows (t.feedAll (os.flatMap Output.chars)) p (os.foldl Transcript.step r)
  | _, _, _, [], h, _ => by simpa [feedAll] using h
  | t, p, r, o :: os, h, ha => by
    obtain ⟨h1, h2⟩ := h.step ha.1
    rw [List.flatMap_cons, feedAll_append, List.foldl_cons]
    exact C89_session_partial h1 (by rw [h2]; exact ha.2)

/-- A terminal with 4 rows and 20 columns, where the prompt is displayed in the first row. -/
def exampleTerm : Term := ({ height := 4, width := 20 } : Term).feedAll p!"> "

theorem exampleTerm_shows : Shows exampleTerm 0 { current := p!"> " } := by
  obtain ⟨g1, g2, g3, -, -, g6⟩ := typed_spec (t := { height := 4, width := 20 }) (s := p!"> ") (cur := [])
    ⟨by decide, by decide, by decide, rfl, rfl, fun _ _ _ => rfl⟩ (by decide) rfl (by decide) rfl
  exact ⟨g1, g2, g3, by simp, g6⟩

/-- More lines than rows are displayed while the user types. -/
example : AllFit exampleTerm.width { current := p!"> " }
    [.key 97, .message (.text p!"one"), .key 98, .message (.binary [0, 255]), .enter, .message (.text p!"two"),
      .message (.text p!"three"), .key 99, .last p!"Bye."] ∧
    ([.key 97, .message (.text p!"one"), .key 98, .message (.binary [0, 255]), .enter, .message (.text p!"two"),
      .message (.text p!"three"), .key 99, .last p!"Bye."] : List Output).foldl Transcript.step { current := p!"> " } =
    { lines := [p!"< one", p!"< (binary) 00ff", p!"> ab", p!"< two", p!"< three", p!"Bye."], current := [] } := by
  refine ⟨?_, by rfl⟩
  simp only [AllFit, OutputFits, and_true]
  decide +kernel

/-- What is on a line, up to a column. -/
def shown (t : Term) (i n : Nat) : PyStr := (List.range n).map (line t i)

/-- **C89 is false** for messages of several lines, and for messages that are longer than a line of the terminal: the end of the
message overwrites the line that the user is typing. -/
theorem C89_multiline_false :
    ∃ (t : Term) (r : Transcript), Shows t 0 r ∧ r.current = p!"> abcdef" ∧
      shown (t.feedAll (Output.chars (.message (.text [49, 10, 50])))) 1 8 = p!"2 abcdef" ∧
      shown (t.feedAll (Output.chars (.message (.text p!"long enough to overflow")))) 1 8 = p!"rflowdef" := by
  obtain ⟨g1, g2, g3, -, -, g6⟩ := typed_spec exampleTerm_shows.ready (s := p!"abcdef") (cur := p!"> ") (by decide)
    exampleTerm_shows.col (by decide +kernel) (by rw [exampleTerm_shows.pos]; exact exampleTerm_shows.current)
  exact ⟨exampleTerm.feedAll p!"abcdef", { current := p!"> abcdef" }, ⟨g1, g2, g3, by simp, g6⟩, rfl, by decide +kernel,
    by decide +kernel⟩

/-- **C89 is false** for messages with escape sequences: the peer can change what was displayed before. -/
theorem C89_escape_false :
    ∃ (t : Term) (r : Transcript), Shows t 0 r ∧ r.lines = [p!"< hello"] ∧
      shown (t.feedAll (Output.chars (.message (.text ([27, 91, 65] ++ p!"bye  "))))) 0 7 = p!"< bye  " := by
  refine ⟨exampleTerm.feedAll (Output.chars (.message (.text p!"hello"))), _,
    (exampleTerm_shows.step (o := .message (.text p!"hello")) ⟨by decide, by decide +kernel⟩).1, rfl, by decide +kernel⟩

/-- **C89 is false**: what is displayed doesn't tell text messages from binary messages. -/
theorem C89_binary_false : ∃ a b : Data, a ≠ b ∧ display a = display b :=
  ⟨.text p!"(binary) 00", .binary [0], by simp, by decide⟩

namespace Spec

def hexValue (c : Nat) : Nat := if c ≤ 57 then c - 48 else c - 87

/-- The bytes that hexadecimal digits stand for. -/
def unhex : PyStr → Bytes
  | a :: b :: s => UInt8.ofNat (16 * hexValue a + hexValue b) :: unhex s
  | _ => []

end Spec

theorem hexDigit_spec (n : Nat) (h : n < 16) : hexValue (hexDigit n) = n ∧ ((48 ≤ hexDigit n ∧ hexDigit n ≤ 57) ∨
    (97 ≤ hexDigit n ∧ hexDigit n ≤ 102)) := by
  unfold hexValue hexDigit
  split <;> split <;> omega

/-- **C89.** Binary messages are displayed as lowercase hexadecimal digits, from which they can be recovered. -/
theorem C89_hex (b : Bytes) : unhex (hex b) = b ∧ (hex b).length = 2 * b.length ∧
    ∀ c ∈ hex b, (48 ≤ c ∧ c ≤ 57) ∨ (97 ≤ c ∧ c ≤ 102) := by
  induction b with
  | nil => simp [hex, unhex]
  | cons x b ih =>
    obtain ⟨h1, h2, h3⟩ := ih
    have hx : x.toNat < 256 := x.toNat_lt
    obtain ⟨k1, k2⟩ := hexDigit_spec (x.toNat / 16) (by omega)
    obtain ⟨k3, k4⟩ := hexDigit_spec (x.toNat % 16) (by omega)
    have he : hex (x :: b) = hexDigit (x.toNat / 16) :: hexDigit (x.toNat % 16) :: hex b := rfl
    rw [he]
    refine ⟨?_, by simp [h2]; omega, ?_⟩
    · rw [unhex, k1, k3, h1, Nat.div_add_mod, UInt8.ofNat_toNat]
    · intro c hc
      simp only [List.mem_cons] at hc
      rcases hc with rfl | rfl | hc
      · exact k2
      · exact k4
      · exact h3 c hc

example : hex [0xDE, 0xAD] = p!"dead" := by decide

end WS.Terminal
