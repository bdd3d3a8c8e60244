import Verif.Lemmas.TumText
import Verif.Props.Tum
import Verif.Props.TumRun
import Mathlib.Tactic.FinCases
/-
C211: the text of the lists of images and of association files; C212: the text of the ground truth.
-/
namespace RgbdSlam.TumText

open Spec
open Tum.Spec (FirstAt)

/-! ## C211 -/

theorem separators_newline {b : Text} (h : ∀ c ∈ b, Separator c) : '\n' ∉ b :=
  fun hm => not_separator_newline (h _ hm)

theorem separators_comment {b t : Text} (h : ∀ c ∈ b, Separator c) (ht : t.head? ≠ some '#') :
    isComment (b ++ t) = false := by
  unfold isComment
  rcases b with _ | ⟨c, b⟩
  · simpa using ht
  · have hc := separator_ne (h c (by simp)) (d := '#') (by decide)
    simpa using hc

theorem numeral_comment {b t : Text} (h : ∀ c ∈ b, Separator c) {n : Numeral} (hn : n.Valid) :
    isComment (b ++ (n.text ++ t)) = false := by
  obtain ⟨c, l, e, -, hc⟩ := numeral_head hn
  refine separators_comment h ?_
  rw [e]
  simpa using hc

theorem blank_comment {b : Text} (h : ∀ c ∈ b, Separator c) : isComment b = false := by
  have := separators_comment (t := []) h (by simp)
  simpa using this

theorem ends_separators {b t : Text} (hb : b ≠ [] ∧ ∀ c ∈ b, Separator c) : Ends (b ++ t) := by
  obtain ⟨c, l, rfl⟩ := List.exists_cons_of_ne_nil hb.1
  intro d hd
  obtain rfl : c = d := Option.some.inj hd
  exact hb.2 c (by simp)

theorem ends_after {b : Text} (hb : ∀ c ∈ b, Separator c) : Ends b :=
  fun _ hc => hb _ (List.mem_of_mem_head? hc)

theorem word_newline {w : Text} (h : Word w) : '\n' ∉ w := fun hm => (h.2 _ hm).2 rfl

theorem word_ne {w : Text} (h : Word w) : String.ofList w ≠ "" := by
  intro e
  have := congrArg String.toList e
  rw [String.toList_ofList] at this
  exact h.1 this

theorem imageLine_newline {l : ImageLine} (h : l.Valid) : '\n' ∉ l.text := by
  cases l with
  | comment t => simpa [ImageLine.text] using (show '\n' ∉ t from h)
  | blank s => exact separators_newline h
  | image before time between path after =>
    obtain ⟨h1, -, h3, h4, h5⟩ := h
    simp only [ImageLine.text, List.mem_append, not_or]
    exact ⟨⟨⟨⟨separators_newline h1, numeral_newline time⟩, separators_newline h3.2⟩, word_newline h4⟩,
      separators_newline h5⟩

/-- The images of the lines of a list. -/
def imagesOf (lines : List Text) : List (ℚ × String) :=
  ((lines.filter fun l => !isComment l).map readImageLine).filter fun l => l.2 ≠ "" ∧ 0 < l.1

theorem parseImages_eq (text : Text) : parseImages text = Tum.parseFile (imagesOf (getLines text)) := by
  unfold parseImages imagesOf Tum.parseFile
  rw [List.foldl_filter]
  congr 1
  funext m l
  by_cases h : l.2 ≠ "" ∧ 0 < l.1
  · simp [h]
  · simp [h]

theorem imagesOf_line {l : ImageLine} (h : l.Valid) :
    imagesOf [l.text] = l.image?.toList.filter fun l => l.2 ≠ "" ∧ 0 < l.1 := by
  cases l with
  | comment t => simp [imagesOf, ImageLine.text, isComment, ImageLine.image?]
  | blank s =>
    have e : readImageLine s = (0, "") := by
      simp only [readImageLine, extractNumber_blank h, extractWord_failed, Option.getD_some]
    simp [imagesOf, ImageLine.text, blank_comment h, ImageLine.image?, e]
  | image before time between path after =>
    obtain ⟨h1, h2, h3, h4, h5⟩ := h
    have et : (ImageLine.image before time between path after).text =
        before ++ (time.text ++ (between ++ (path ++ after))) := by
      simp [ImageLine.text]
    have e : readImageLine (before ++ (time.text ++ (between ++ (path ++ after)))) =
        (time.value, String.ofList path) := by
      simp only [readImageLine, extractNumber_text h1 h2 (ends_separators h3), extractWord_text h3.2 h4 (ends_after h5),
        Option.getD_some]
    rw [et, imagesOf, List.filter_cons_of_pos (by simp [numeral_comment h1 h2])]
    simp only [List.filter_nil, List.map_cons, List.map_nil, e]
    rfl

theorem imagesOf_append (a b : List Text) : imagesOf (a ++ b) = imagesOf a ++ imagesOf b := by
  simp [imagesOf]

theorem imagesOf_lines (lines : List ImageLine) (h : ∀ l ∈ lines, l.Valid) :
    imagesOf (lines.map (·.text)) = (lines.filterMap (·.image?)).filter fun l => l.2 ≠ "" ∧ 0 < l.1 := by
  induction lines with
  | nil => rfl
  | cons l ls ih =>
    have e : (l :: ls).map (·.text) = [l.text] ++ ls.map (·.text) := rfl
    have e' : (l :: ls).filterMap (·.image?) = l.image?.toList ++ ls.filterMap (·.image?) := by
      rw [List.filterMap_cons]
      cases l.image? <;> rfl
    rw [e, imagesOf_append, imagesOf_line (h l (by simp)), ih fun l hl => h l (by simp [hl]), e', List.filter_append]

theorem imagesOf_written {lines : List Text} (h : ∀ l ∈ lines, '\n' ∉ l) {text : Text} (hw : Written lines text) :
    imagesOf (getLines text) = imagesOf lines := by
  rcases getLines_written h hw with e | ⟨ls, e, e'⟩
  · rw [e]
  · have hnil : imagesOf [[]] = [] := by
      have := imagesOf_line (l := .blank []) (by intro c hc; cases hc)
      simpa [ImageLine.text, ImageLine.image?] using this
    rw [e', e, imagesOf_append, hnil, List.append_nil]

theorem image?_ne {l : ImageLine} (h : l.Valid) {e : ℚ × String} (he : l.image? = some e) : e.2 ≠ "" := by
  cases l with
  | comment t => cases he
  | blank s => cases he
  | image before time between path after =>
    obtain rfl := Option.some.inj he
    exact word_ne h.2.2.2.1

theorem firstAt_filter {V : Type} {valid : ℚ × V → Prop} [DecidablePred valid] {lines : List (ℚ × V)} {e : ℚ × V}
    (h : FirstAt valid (lines.filter valid) e) : FirstAt valid lines e := by
  obtain ⟨pre, post, h1, h2, h3⟩ := h
  obtain ⟨a, b, rfl, ha, hb⟩ := List.filter_eq_append_iff.1 h1
  obtain ⟨c, d, rfl, hc, -, -⟩ := List.filter_eq_cons_iff.1 hb
  refine ⟨a ++ c, d, by simp, h2, fun x hx hv => ?_⟩
  rcases List.mem_append.1 hx with hx | hx
  · exact h3 x (by rw [← ha]; exact List.mem_filter.2 ⟨hx, by simpa using hv⟩) hv
  · exact absurd hv (by simpa using hc x hx)

theorem filter_firstAt {V : Type} {valid : ℚ × V → Prop} [DecidablePred valid] {lines : List (ℚ × V)} {e : ℚ × V}
    (h : FirstAt valid lines e) : FirstAt valid (lines.filter valid) e := by
  obtain ⟨pre, post, rfl, h2, h3⟩ := h
  refine ⟨pre.filter valid, post.filter valid, ?_, h2, fun x hx hv => h3 x (List.mem_filter.1 hx).1 hv⟩
  rw [List.filter_append, List.filter_cons_of_pos (by simpa using h2)]

/-- C211: of a list of images made of comments, of lines without values and of lines with a time and a path, whatever
separates them, ends the lines and starts them, the program reads the images of positive time, the first one of each
time, by increasing time. -/
theorem C211_images (lines : List ImageLine) (hv : ∀ l ∈ lines, l.Valid) (text : List Char)
    (hw : Written (lines.map (·.text)) text) :
    Tum.SortedMap (parseImages text) ∧
    ∀ e, e ∈ parseImages text ↔ FirstAt (fun i => 0 < i.1) (lines.filterMap (·.image?)) e := by
  have hn : ∀ l ∈ lines.map (·.text), '\n' ∉ l := by
    intro l hl
    obtain ⟨m, hm, rfl⟩ := List.mem_map.1 hl
    exact imageLine_newline (hv m hm)
  rw [parseImages_eq, imagesOf_written hn hw, imagesOf_lines lines hv]
  obtain ⟨h1, h2⟩ := Tum.C51_parse_images ((lines.filterMap (·.image?)).filter fun l => l.2 ≠ "" ∧ 0 < l.1)
  refine ⟨h1, fun e => (h2 e).trans ?_⟩
  have hne : ∀ e ∈ lines.filterMap (·.image?), e.2 ≠ "" := by
    intro e he
    obtain ⟨l, hl, hl'⟩ := List.mem_filterMap.1 he
    exact image?_ne (hv l hl) hl'
  constructor
  · intro h
    obtain ⟨pre, post, h1, h2, h3⟩ := firstAt_filter h
    exact ⟨pre, post, h1, h2.2, fun x hx hp => h3 x hx ⟨hne x (by rw [h1]; simp [hx]), hp⟩⟩
  · rintro ⟨pre, post, h1, h2, h3⟩
    refine filter_firstAt ⟨pre, post, h1, ⟨hne e (by rw [h1]; simp), h2⟩, fun x hx hp => h3 x hx hp.2⟩

/-- The lines of any text. -/
theorem spaces_separators {line b : Text} (h : '\n' ∉ line) (hb : ∀ c ∈ b, isSpace c = true) (hs : ∀ c ∈ b, c ∈ line) :
    ∀ c ∈ b, Separator c := by
  intro c hc
  rcases isSpace_iff.1 (hb c hc) with h' | rfl
  · exact h'
  · exact absurd (hs _ hc) h

/-- C211: whatever the text, an image that is read is on a line that is not a comment: a number, its time, then
a word, its path. -/
theorem C211_images_written (text : List Char) :
    ∃ lines, (∀ l ∈ lines, '\n' ∉ l) ∧ Written lines text ∧
      ∀ e ∈ parseImages text, 0 < e.1 ∧ ∃ line ∈ lines, line.head? ≠ some '#' ∧
        ∃ before time between path after, line = before ++ Numeral.text time ++ between ++ path ++ after ∧
          (∀ c ∈ before, Separator c) ∧ time.Valid ∧ (∀ c ∈ between, Separator c) ∧ Word path ∧
          (∀ c, after.head? = some c → Separator c) ∧ e = (time.value, String.ofList path) := by
  obtain ⟨hn, hw⟩ := written_getLines text
  refine ⟨getLines text, hn, hw, fun e he => ?_⟩
  rw [parseImages] at he
  obtain ⟨pre, post, h1, h2, -⟩ := ((Tum.C51_parse_images _).2 e).1 he
  refine ⟨h2.2, ?_⟩
  have hm : e ∈ ((getLines text).filter fun l => !isComment l).map readImageLine := by
    rw [h1]
    simp
  obtain ⟨line, hl, rfl⟩ := List.mem_map.1 hm
  obtain ⟨hl, hc⟩ := List.mem_filter.1 hl
  refine ⟨line, hl, by simpa [isComment] using hc, ?_⟩
  have hp : (extractWord (extractNumber ⟨line, false⟩ (some 0)).2 "").1 ≠ "" := h2.1
  obtain ⟨hf, b2, w, hb2, hw0, hws, hr, he, hpath, -⟩ := extractWord_inv hp
  obtain ⟨b1, n, hb1, hn1, ht, hv⟩ := extractNumber_inv hf
  rw [hr] at ht
  have hnl := hn line hl
  generalize (extractWord (extractNumber ⟨line, false⟩ (some 0)).2 "").2.rest = after at *
  have hmem : ∀ c, c ∈ b1 ∨ c ∈ b2 ∨ c ∈ w ∨ c ∈ after → c ∈ line := by
    intro c hc
    rw [ht]
    simp only [List.mem_append]
    rcases hc with h | h | h | h <;> simp [h]
  refine ⟨b1, n, b2, w, after, by rw [ht]; simp, spaces_separators hnl hb1 fun c hc => hmem c (.inl hc), hn1,
    spaces_separators hnl hb2 fun c hc => hmem c (.inr (.inl hc)), ⟨hw0, fun c hc => ⟨?_, ?_⟩⟩, fun c hc => ?_, ?_⟩
  · intro hs
    exact absurd (hws c hc) (by simp [separator_isSpace hs])
  · rintro rfl
    exact hnl (hmem _ (.inr (.inr (.inl hc))))
  · rcases isSpace_iff.1 (he c hc) with h | rfl
    · exact h
    · exact absurd (hmem _ (.inr (.inr (.inr (List.mem_of_mem_head? hc))))) hnl
  · show (_, _) = _
    rw [hv, hpath]
    rfl

/-! ### Association files -/

theorem pairLine_newline {l : PairLine} (h : l.Valid) : '\n' ∉ l.text := by
  cases l with
  | comment t => simpa [PairLine.text] using (show '\n' ∉ t from h)
  | blank s => exact separators_newline h
  | pair before depthTime b1 depthPath b2 rgbTime b3 rgbPath after =>
    obtain ⟨h1, -, h3, h4, h5, -, h7, h8, h9⟩ := h
    simp only [PairLine.text, List.mem_append, not_or]
    exact ⟨⟨⟨⟨⟨⟨⟨⟨separators_newline h1, numeral_newline _⟩, separators_newline h3.2⟩, word_newline h4⟩,
      separators_newline h5.2⟩, numeral_newline _⟩, separators_newline h7.2⟩, word_newline h8⟩, separators_newline h9⟩

/-- The frame of two images: its ground truth is the one of the time of the colour image. -/
def pairFrame {G : Type} (truth : Tum.TimeMap G) (p : (ℚ × String) × (ℚ × String)) : Tum.Frame G :=
  { rgb := p.2, depth := some p.1, groundTruth := (Tum.find? p.2.1 truth).map fun g => (p.2.1, g) }

theorem associationFrames_cons {G : Type} (truth : Tum.TimeMap G) {l : PairLine} (h : l.Valid) (lines : List Text)
    {fs : List (Tum.Frame G)} (hfs : associationFrames truth lines = .ok fs) :
    associationFrames truth (l.text :: lines) = .ok ((l.pair?.toList.map (pairFrame truth)) ++ fs) := by
  cases l with
  | comment t =>
    rw [associationFrames, if_pos (by simp [isComment, PairLine.text]), hfs]
    rfl
  | blank s =>
    have e : readAssociation s = (none, "", none, "") := by
      simp only [readAssociation, extractNumber_blank h, extractWord_failed, extractNumber_failed]
    have e' : associationFrame truth s = .ok [] := by
      simp only [associationFrame, e]
      rfl
    rw [associationFrames, if_neg (by rw [show (PairLine.blank s).text = s from rfl, blank_comment h]; simp)]
    rw [show (PairLine.blank s).text = s from rfl, e', hfs]
    rfl
  | pair before depthTime b1 depthPath b2 rgbTime b3 rgbPath after =>
    obtain ⟨h1, h2, h3, h4, h5, h6, h7, h8, h9⟩ := h
    have et : (PairLine.pair before depthTime b1 depthPath b2 rgbTime b3 rgbPath after).text =
        before ++ (depthTime.text ++ (b1 ++ (depthPath ++ (b2 ++ (rgbTime.text ++ (b3 ++ (rgbPath ++ after))))))) := by
      simp [PairLine.text]
    have e : readAssociation (before ++ (depthTime.text ++ (b1 ++ (depthPath ++ (b2 ++ (rgbTime.text ++ (b3 ++
        (rgbPath ++ after)))))))) = (some depthTime.value, String.ofList depthPath, some rgbTime.value,
          String.ofList rgbPath) := by
      simp only [readAssociation, extractNumber_text h1 h2 (ends_separators h3),
        extractWord_text h3.2 h4 (ends_separators h5), extractNumber_text h5.2 h6 (ends_separators h7),
        extractWord_text h7.2 h8 (ends_after h9)]
    have e' : associationFrame truth (before ++ (depthTime.text ++ (b1 ++ (depthPath ++ (b2 ++ (rgbTime.text ++ (b3 ++
        (rgbPath ++ after)))))))) = .ok [pairFrame truth ((depthTime.value, String.ofList depthPath),
          (rgbTime.value, String.ofList rgbPath))] := by
      simp only [associationFrame, e]
      rw [if_pos ⟨word_ne h4, word_ne h8⟩]
      rfl
    rw [et, associationFrames, if_neg (by simp [numeral_comment h1 h2]), e', hfs]
    rfl

theorem associationFrames_lines {G : Type} (truth : Tum.TimeMap G) (lines : List PairLine) (h : ∀ l ∈ lines, l.Valid) :
    associationFrames truth (lines.map (·.text)) = .ok ((lines.filterMap (·.pair?)).map (pairFrame truth)) := by
  induction lines with
  | nil => rfl
  | cons l ls ih =>
    rw [List.map_cons, associationFrames_cons truth (h l (by simp)) _ (ih fun l hl => h l (by simp [hl])),
      List.filterMap_cons]
    cases l.pair? <;> rfl

theorem associationFrames_snoc {G : Type} (truth : Tum.TimeMap G) (lines : List Text) {fs : List (Tum.Frame G)}
    (h : associationFrames truth (lines ++ [[]]) = .ok fs) : associationFrames truth lines = .ok fs := by
  induction lines generalizing fs with
  | nil => exact h
  | cons l ls ih =>
    rw [List.cons_append, associationFrames] at h
    rw [associationFrames]
    split_ifs at h ⊢ with hc
    · exact ih h
    · obtain ⟨f, hf, h⟩ := Outcome.bind_eq_ok h
      rw [hf]
      rcases e : associationFrames truth (ls ++ [[]]) with gs | _ | _ | _ | _ | _
      · rw [e] at h
        show (associationFrames truth ls).map (f ++ ·) = _
        rw [ih e]
        exact h
      all_goals
        rw [e] at h
        cases h

/-- C211: an association file made of comments, of lines without values and of lines with the times and paths of two
images gives a frame for each of these lines, in their order, with the images of the line and the ground truth that has
the very time of the colour image. -/
theorem C211_associations {G : Type} (truth : Tum.TimeMap G) (lines : List PairLine) (hv : ∀ l ∈ lines, l.Valid)
    (text : List Char) (hw : Written (lines.map (·.text)) text) :
    parseAssociationFile truth text = .ok ((lines.filterMap (·.pair?)).map fun p =>
      { rgb := p.2, depth := some p.1, groundTruth := (Tum.find? p.2.1 truth).map fun g => (p.2.1, g) }) := by
  have hn : ∀ l ∈ lines.map (·.text), '\n' ∉ l := by
    intro l hl
    obtain ⟨m, hm, rfl⟩ := List.mem_map.1 hl
    exact pairLine_newline (hv m hm)
  have h := associationFrames_lines truth lines hv
  unfold parseAssociationFile
  rcases getLines_written hn hw with e | ⟨ls, e, e'⟩
  · rw [e]
    exact h
  · rw [e'] 
    rw [e] at h
    exact associationFrames_snoc truth ls h

theorem associationFrame_spec {G : Type} (truth : Tum.TimeMap G) {line : Text} (hn : '\n' ∉ line) :
    ∃ fs, associationFrame truth line = .ok fs ∧ ∀ f ∈ fs, ∃ before depthTime b1 depthPath b2 rgbTime b3 rgbPath after,
      line = before ++ Numeral.text depthTime ++ b1 ++ depthPath ++ b2 ++ Numeral.text rgbTime ++ b3 ++ rgbPath ++ after ∧
      depthTime.Valid ∧ depthPath ≠ [] ∧ rgbTime.Valid ∧ rgbPath ≠ [] ∧
      (∀ c, c ∈ before ∨ c ∈ b1 ∨ c ∈ b2 ∨ c ∈ b3 → Separator c) ∧
      (∀ c, c ∈ depthPath ∨ c ∈ rgbPath → ¬ Separator c) ∧
      f.depth = some (depthTime.value, String.ofList depthPath) ∧ f.rgb = (rgbTime.value, String.ofList rgbPath) := by
  unfold associationFrame readAssociation
  dsimp only
  split_ifs with h
  · obtain ⟨hd, hr⟩ := h
    obtain ⟨f2, b3, w3, hb3, hw3, hws3, ht3, -, hp3, -⟩ := extractWord_inv hr
    obtain ⟨f1, b1, w1, hb1, hw1, hws1, ht1, -, hp1, g1⟩ := extractWord_inv hd
    have f2' := f2
    generalize hs1 : extractWord (extractNumber ⟨line, false⟩ none).2 "" = s1 at *
    obtain ⟨p1, r1, q1⟩ := s1
    dsimp only at g1 hp1 ht1 f2' ⊢
    subst g1
    obtain ⟨b2, n2, hb2, hn2, ht2, hv2⟩ := extractNumber_inv f2'
    obtain ⟨b0, n0, hb0, hn0, ht0, hv0⟩ := extractNumber_inv f1
    generalize hs0 : extractNumber ⟨line, false⟩ none = s0 at *
    obtain ⟨v0, r0, q0⟩ := s0
    dsimp only at *
    generalize hs2 : extractNumber ⟨r1, false⟩ none = s2 at *
    obtain ⟨v2, r2, q2⟩ := s2
    dsimp only at *
    subst hv0 hv2
    refine ⟨_, rfl, fun f hf => ?_⟩
    obtain rfl := List.mem_singleton.1 hf
    have hline : line = b0 ++ n0.text ++ b1 ++ w1 ++ b2 ++ n2.text ++ b3 ++ w3 ++ (extractWord ⟨r2, q2⟩ "").2.rest := by
      have h3 : r2 = b3 ++ (w3 ++ (extractWord ⟨r2, q2⟩ "").2.rest) := ht3
      generalize (extractWord ⟨r2, q2⟩ "").2.rest = last at h3
      rw [ht0, ht1, ht2, h3]
      simp only [List.append_assoc]
    have hmem : ∀ c, c ∈ b0 ∨ c ∈ b1 ∨ c ∈ b2 ∨ c ∈ b3 → c ∈ line := by
      intro c hc
      rw [hline]
      simp only [List.mem_append]
      rcases hc with h | h | h | h <;> simp [h]
    refine ⟨b0, n0, b1, w1, b2, n2, b3, w3, _, hline, hn0, hw1, hn2, hw3, fun c hc => ?_, fun c hc hs => ?_, by rw [hp1],
      by rw [hp3]⟩
    · have hsp : isSpace c = true := by
        rcases hc with h | h | h | h
        · exact hb0 c h
        · exact hb1 c h
        · exact hb2 c h
        · exact hb3 c h
      rcases isSpace_iff.1 hsp with h | rfl
      · exact h
      · exact absurd (hmem _ hc) hn
    · have := separator_isSpace hs
      rcases hc with h | h
      · rw [hws1 c h] at this
        cases this
      · rw [hws3 c h] at this
        cases this
  · exact ⟨_, rfl, by simp⟩

/-- C211: whatever the text, reading an association file has a defined behaviour, and each of its frames has the times
and the paths that are written on a line which is not a comment: a number, a word, a number and a word. -/
theorem C211_associations_written {G : Type} (truth : Tum.TimeMap G) (text : List Char) :
    ∃ lines frames, (∀ l ∈ lines, '\n' ∉ l) ∧ Written lines text ∧ parseAssociationFile truth text = .ok frames ∧
      ∀ f ∈ frames, ∃ line ∈ lines, line.head? ≠ some '#' ∧
        ∃ before depthTime b1 depthPath b2 rgbTime b3 rgbPath after,
          line = before ++ Numeral.text depthTime ++ b1 ++ depthPath ++ b2 ++ Numeral.text rgbTime ++ b3 ++ rgbPath ++
            after ∧
          depthTime.Valid ∧ depthPath ≠ [] ∧ rgbTime.Valid ∧ rgbPath ≠ [] ∧
          (∀ c, c ∈ before ∨ c ∈ b1 ∨ c ∈ b2 ∨ c ∈ b3 → Separator c) ∧
          (∀ c, c ∈ depthPath ∨ c ∈ rgbPath → ¬ Separator c) ∧
          f.depth = some (depthTime.value, String.ofList depthPath) ∧
          f.rgb = (rgbTime.value, String.ofList rgbPath) := by
  obtain ⟨hn, hw⟩ := written_getLines text
  have key : ∀ lines : List Text, (∀ l ∈ lines, '\n' ∉ l) → ∃ frames, associationFrames truth lines = .ok frames ∧
      ∀ f ∈ frames, ∃ line ∈ lines, isComment line = false ∧ ∃ fs, associationFrame truth line = .ok fs ∧ f ∈ fs := by
    intro lines hl
    induction lines with
    | nil => exact ⟨[], rfl, by simp⟩
    | cons l ls ih =>
      obtain ⟨gs, hgs, h⟩ := ih fun l h => hl l (by simp [h])
      rw [associationFrames]
      split_ifs with hc
      · refine ⟨gs, hgs, fun f hf => ?_⟩
        obtain ⟨line, h1, h2⟩ := h f hf
        exact ⟨line, by simp [h1], h2⟩
      · obtain ⟨fs, hfs, -⟩ := associationFrame_spec truth (hl l (by simp))
        refine ⟨fs ++ gs, by rw [hfs, hgs]; rfl, fun f hf => ?_⟩
        rcases List.mem_append.1 hf with hf | hf
        · exact ⟨l, by simp, by simpa using hc, fs, hfs, hf⟩
        · obtain ⟨line, h1, h2⟩ := h f hf
          exact ⟨line, by simp [h1], h2⟩
  obtain ⟨frames, hf, h⟩ := key _ hn
  refine ⟨getLines text, frames, hn, hw, hf, fun f hm => ?_⟩
  obtain ⟨line, hl, hc, fs, hfs, hm⟩ := h f hm
  obtain ⟨fs', hfs', h⟩ := associationFrame_spec truth (hn line hl)
  obtain rfl : fs = fs' := Outcome.ok.inj (hfs.symm.trans hfs')
  exact ⟨line, hl, by simpa [isComment] using hc, h f hm⟩

/-! ## C212 -/

theorem truthLine_newline {l : TruthLine} (h : l.Valid) : '\n' ∉ l.text := by
  cases l with
  | comment t => simpa [TruthLine.text] using (show '\n' ∉ t from h)
  | pose before time numbers after =>
    obtain ⟨h1, -, -, h4, h5⟩ := h
    simp only [TruthLine.text, List.mem_append, List.mem_flatMap, not_or, not_exists, not_and]
    exact ⟨⟨⟨separators_newline h1, numeral_newline time⟩, fun n hn => ⟨separators_newline (h4 n hn).1.2,
      numeral_newline _⟩⟩, separators_newline h5⟩

theorem extractNumbers_text (numbers : List (Text × Numeral)) {after : Text} (ha : ∀ c ∈ after, Separator c)
    (h : ∀ n ∈ numbers, (n.1 ≠ [] ∧ ∀ c ∈ n.1, Separator c) ∧ n.2.Valid) :
    extractNumbers numbers.length ⟨numbers.flatMap (fun n => n.1 ++ n.2.text) ++ after, false⟩ =
      numbers.map fun n => some n.2.value := by
  have ends : ∀ numbers : List (Text × Numeral), (∀ n ∈ numbers, n.1 ≠ [] ∧ ∀ c ∈ n.1, Separator c) →
      Ends (numbers.flatMap (fun n => n.1 ++ n.2.text) ++ after) := by
    intro numbers h
    rcases numbers with _ | ⟨n, ns⟩
    · exact ends_after ha
    · rw [List.flatMap_cons, List.append_assoc, List.append_assoc]
      exact ends_separators (h n (by simp))
  induction numbers with
  | nil => rfl
  | cons n ns ih =>
    have hn := h n (by simp)
    have he := ends ns fun m hm => (h m (by simp [hm])).1
    rw [List.flatMap_cons, List.append_assoc, List.append_assoc, List.length_cons, extractNumbers,
      extractNumber_text hn.1.2 hn.2 he, List.map_cons]
    dsimp only
    rw [ih fun m hm => h m (by simp [hm])]

theorem truth_lines (lines : List TruthLine) (h : ∀ l ∈ lines, l.Valid) :
    ((lines.map (·.text)).filter fun l => !isComment l).map readTruthLine = lines.filterMap (·.pose?) := by
  induction lines with
  | nil => rfl
  | cons l ls ih =>
    have ih := ih fun l hl => h l (by simp [hl])
    have hl := h l (by simp)
    rw [List.map_cons, List.filterMap_cons]
    cases l with
    | comment t =>
      rw [List.filter_cons_of_neg (by simp [isComment, TruthLine.text])]
      exact ih
    | pose before time numbers after =>
      obtain ⟨h1, h2, h3, h4, h5⟩ := hl
      have et : (TruthLine.pose before time numbers after).text =
          before ++ (time.text ++ (numbers.flatMap (fun n => n.1 ++ n.2.text) ++ after)) := by
        simp [TruthLine.text]
      have hne : numbers ≠ [] := by
        rintro rfl
        cases h3
      obtain ⟨n, ns, e⟩ := List.exists_cons_of_ne_nil hne
      have he : Ends (numbers.flatMap (fun n => n.1 ++ n.2.text) ++ after) := by
        rw [e, List.flatMap_cons, List.append_assoc, List.append_assoc]
        exact ends_separators (h4 n (by simp [e])).1
      have hx := extractNumbers_text numbers h5 h4
      rw [h3] at hx
      have er : readTruthLine (before ++ (time.text ++ (numbers.flatMap (fun n => n.1 ++ n.2.text) ++ after))) =
          (time.value, numbers.map fun n => some n.2.value) := by
        simp only [readTruthLine, extractNumber_text h1 h2 he, hx, Option.getD_some]
      rw [et, List.filter_cons_of_pos (by simp [numeral_comment h1 h2]), List.map_cons, er, ih]
      rfl

/-- C212, for files whose lines are all comments or complete: of a ground truth made of comments and of lines with a
time and seven numbers, the program reads the first pose of each time, with the seven numbers of its line.  What is
missing: see `C212_truth_false`. -/
theorem C212_truth_partial (lines : List TruthLine) (hv : ∀ l ∈ lines, l.Valid) (text : List Char)
    (hw : Written (lines.map (·.text)) text) :
    Tum.SortedMap (parseTruth text) ∧
    ∀ e, e ∈ parseTruth text ↔ FirstAt (fun _ => True) (lines.filterMap (·.pose?)) e := by
  have hn : ∀ l ∈ lines.map (·.text), '\n' ∉ l := by
    intro l hl
    obtain ⟨m, hm, rfl⟩ := List.mem_map.1 hl
    exact truthLine_newline (hv m hm)
  have hne : ∀ l ∈ lines.map (·.text), l ≠ [] := by
    intro l hl
    obtain ⟨m, hm, rfl⟩ := List.mem_map.1 hl
    cases m with
    | comment t => simp [TruthLine.text]
    | pose before time numbers after =>
      obtain ⟨c, l, e, -⟩ := numeral_head (hv _ hm).2.1
      simp [TruthLine.text, e]
  have e : getLines text = lines.map (·.text) := by
    rcases getLines_written hn hw with e | ⟨ls, e, -⟩
    · exact e
    · exact absurd rfl (hne [] (by rw [e]; simp))
  rw [parseTruth, e, truth_lines lines hv]
  exact Tum.C51_parse_truth _

/-- C212 is false of the code: a line of the ground truth that is cut after its second coordinate is kept, with numbers
that were never read.  It hides the complete line of the same time, and the frame of this time gets it.  A line without
values is kept too, at the time 0. -/
theorem C212_truth_false :
    (∃ text : List Char, text = "1.5 1 2\n1.5 1 2 3 0 0 0 1\n".toList ∧
      parseTruth text = [(3 / 2, [some 1, some 2, none, none, none, none, none])] ∧
      (Tum.assignGroundTruth [{ rgb := (3 / 2, "c.png"), depth := none, groundTruth := none }] (parseTruth text)).map
        (·.groundTruth) = [some (3 / 2, [some 1, some 2, none, none, none, none, none])]) ∧
    parseTruth "\n".toList = [(0, [none, none, none, none, none, none, none])] :=
  ⟨⟨_, rfl, by decide +kernel, by decide +kernel⟩, by decide +kernel⟩

/-- Non-vacuity: a comment, an image, an empty line and an image whose line ends with a carriage return. -/
example :
    let lines : List ImageLine := [.comment " images".toList,
      .image [] ⟨none, [1], some [5], none⟩ [' '] "rgb/1.png".toList [],
      .blank [], .image ['\t'] ⟨some false, [2], none, some (false, some true, [1])⟩ [' ', ' '] "a".toList ['\r']]
    (∀ l ∈ lines, l.Valid) ∧ Written (lines.map (·.text)) "# images\n1.5 rgb/1.png\n\n\t+2e-1  a\r\n".toList ∧
      parseImages "# images\n1.5 rgb/1.png\n\n\t+2e-1  a\r\n".toList = [(1 / 5, "a"), (3 / 2, "rgb/1.png")] := by
  refine ⟨?_, .inr (by decide +kernel), by decide +kernel⟩
  intro l hl
  fin_cases hl
  · show '\n' ∉ _
    decide
  · refine ⟨by simp, ⟨by simp, by simp⟩, ⟨by simp, ?_⟩, ⟨by decide, ?_⟩, by simp⟩ <;> unfold Separator <;> decide
  · show ∀ c ∈ [], Separator c
    simp
  · refine ⟨?_, ⟨by simp, by simp⟩, ⟨by simp, ?_⟩, ⟨by decide, ?_⟩, ?_⟩ <;> unfold Separator <;> decide

/-- Non-vacuity: an association file without a final end of line; its second line misses a path. -/
example : parseAssociationFile [(2, 7)] "# depth rgb\n1 d1.png 2.00 c1.png\n3 d3.png\n4 d4 5e0 c5".toList =
    .ok [⟨(2, "c1.png"), some (1, "d1.png"), some (2, 7)⟩, ⟨(5, "c5"), some (4, "d4"), none⟩] := by
  have h : (match parseAssociationFile [(2, 7)] "# depth rgb\n1 d1.png 2.00 c1.png\n3 d3.png\n4 d4 5e0 c5".toList with
    | .ok fs => fs.map (fun f => (f.rgb, f.depth, f.groundTruth)) | _ => []) =
      [((2, "c1.png"), some (1, "d1.png"), some (2, 7)), ((5, "c5"), some (4, "d4"), none)] := by decide +kernel
  revert h
  rcases parseAssociationFile [(2, 7)] "# depth rgb\n1 d1.png 2.00 c1.png\n3 d3.png\n4 d4 5e0 c5".toList with fs | _
  · intro h
    rcases fs with _ | ⟨⟨a1, a2, a3⟩, _ | ⟨⟨b1, b2, b3⟩, _ | ⟨c, fs⟩⟩⟩ <;> simp_all
  all_goals
    intro h
    simp at h

/-- Non-vacuity: two poses. -/
example : parseTruth "# time pose\n1.5 1 -2 .5 0 0 0 1\n2 0 0 0 0 0 0 1".toList =
    [(3 / 2, [some 1, some (-2), some (1 / 2), some 0, some 0, some 0, some 1]),
     (2, [some 0, some 0, some 0, some 0, some 0, some 0, some 1])] := by decide +kernel

end RgbdSlam.TumText
