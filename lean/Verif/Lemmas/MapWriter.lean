import Verif.Spec.MapWriter
/-
Reading back what the writers write.
-/
namespace RgbdSlam.Writer

theorem split_ne_nil (sep : Char) (t : List Char) : split sep t ≠ [] := by
  cases t with
  | nil => simp [split]
  | cons c cs =>
    unfold split
    split
    · simp
    · split <;> simp

theorem split_word {sep : Char} : ∀ {w : List Char}, sep ∉ w → split sep w = [w]
  | [], _ => rfl
  | c :: cs, h => by
    simp only [List.mem_cons, not_or] at h
    simp [split, Ne.symm h.1, split_word h.2]

theorem split_append {sep : Char} (rest : List Char) :
    ∀ {w : List Char}, sep ∉ w → split sep (w ++ sep :: rest) = w :: split sep rest
  | [], _ => by simp [split]
  | c :: cs, h => by
    simp only [List.mem_cons, not_or] at h
    simp [split, Ne.symm h.1, split_append rest h.2]

/-- A line: words separated by blanks. -/
def joinWords : List (List Char) → List Char
  | [] => []
  | [w] => w
  | w :: ws => w ++ ' ' :: joinWords ws

def Good (l : List (List Char)) : Prop := l ≠ [] ∧ ∀ w ∈ l, ' ' ∉ w ∧ '\n' ∉ w

theorem split_joinWords : ∀ {l : List (List Char)}, l ≠ [] → (∀ w ∈ l, ' ' ∉ w) →
    split ' ' (joinWords l) = l
  | [], h, _ => absurd rfl h
  | [w], _, h => by simpa [joinWords] using split_word (h w (by simp))
  | w :: w' :: ws, _, h => by
    have := split_joinWords (l := w' :: ws) (by simp) (fun v hv => h v (List.mem_cons_of_mem _ hv))
    rw [joinWords, split_append _ (h w (by simp)), this]
    simp

theorem newline_notin_joinWords : ∀ {l : List (List Char)}, (∀ w ∈ l, '\n' ∉ w) →
    '\n' ∉ joinWords l
  | [], _ => by simp [joinWords]
  | [w], h => by simpa [joinWords] using h w (by simp)
  | w :: w' :: ws, h => by
    have := newline_notin_joinWords (l := w' :: ws) (fun v hv => h v (List.mem_cons_of_mem _ hv))
    have hw := h w (by simp)
    simp [joinWords, this, hw]

def render (l : List (List Char)) : List Char := joinWords l ++ ['\n']

theorem fileLines_cons {l : List (List Char)} (hl : Good l) (rest : List Char) :
    fileLines (render l ++ rest) = l :: fileLines rest := by
  have h1 : '\n' ∉ joinWords l := newline_notin_joinWords fun w hw => (hl.2 w hw).2
  simp only [fileLines, render, List.append_assoc, List.singleton_append]
  rw [split_append _ h1, List.dropLast_cons_of_ne_nil (split_ne_nil _ _)]
  simp [split_joinWords hl.1 fun w hw => (hl.2 w hw).1]

theorem fileLines_render : ∀ {ls : List (List (List Char))}, (∀ l ∈ ls, Good l) →
    fileLines (ls.flatMap render) = ls
  | [], _ => by simp [fileLines, split]
  | l :: ls, h => by
    rw [List.flatMap_cons, fileLines_cons (h l (by simp)),
      fileLines_render fun l hl => h l (by simp [hl])]

theorem number_noblank (n : Nat) : ' ' ∉ number n ∧ '\n' ∉ number n := by
  constructor <;> intro h <;>
    have := Nat.isDigit_of_mem_toDigits (b := 10) (by decide) (by decide) h <;>
    simp at this

theorem read_number (n : Nat) : Nat.ofDigitChars 10 (number n) 0 = n :=
  Nat.ofDigitChars_toDigits (by decide) (by decide)

variable {R : Type} (fmt : R → List Char)

/-- Lines that a call appends to an OBJ file, and vertices, when the next vertex has number `n`. -/
def vlines (ps : List (Vec R)) : List (List (List Char)) := ps.map fun p => ['v'] :: words fmt p

theorem coords_eq (p : Vec R) : coords fmt p = render (words fmt p) := by
  simp [coords, render, words, joinWords]

theorem vertex_eq (p : Vec R) : vertex fmt p = render (['v'] :: words fmt p) := by
  simp [vertex, coords, render, words, joinWords]

theorem joinWords_cons_ne (w : List Char) {ws : List (List Char)} (h : ws ≠ []) :
    joinWords (w :: ws) = w ++ ' ' :: joinWords ws := by
  cases ws with
  | nil => exact absurd rfl h
  | cons a b => rfl

theorem joinWords_head (c : Char) (ws : List (List Char)) :
    joinWords ([c] :: ws) = c :: ws.flatMap (' ' :: ·) := by
  induction ws generalizing c with
  | nil => rfl
  | cons w ws ih =>
    rw [joinWords_cons_ne _ (by simp)]
    cases ws with
    | nil => simp [joinWords]
    | cons a b =>
      rw [joinWords_cons_ne w (by simp)]
      have := ih c
      rw [joinWords_cons_ne _ (by simp)] at this
      simp only [List.cons_append, List.nil_append, List.cons.injEq, true_and] at this
      simp [this]

theorem range'_words_succ (n m : Nat) :
    (List.range' n (m + 1)).map number = number n :: (List.range' (n + 1) m).map number := by
  simp [List.range'_succ]

theorem addVertices_eq : ∀ (ps : List (Vec R)) (w : Obj) (s : List Char),
    Obj.addVertices fmt w s ps =
      (⟨w.text ++ (vlines fmt ps).flatMap render, w.index + ps.length⟩,
        s ++ ((List.range' w.index ps.length).map number).flatMap (' ' :: ·))
  | [], w, s => by simp [Obj.addVertices, vlines]
  | p :: ps, w, s => by
    rw [Obj.addVertices, addVertices_eq ps]
    simp only [vlines, vertex_eq, List.length_cons, range'_words_succ]
    simp
    omega

/-- Vertices that a call writes. -/
def callVertices : Call R → List (Vec R)
  | .point p => [p]
  | .line ps => ps
  | .polygon ps _ => loopOrder ps

/-- Elements that a call writes when `n` is the next vertex number. -/
def callElements (n : Nat) : Call R → List (Char × List Nat)
  | .point _ => [('p', [n + 1])]
  | .line ps => [('l', List.range' n ps.length)]
  | .polygon ps _ => if ps.isEmpty then [] else [('f', List.range' n (loopOrder ps).length)]

/-- Lines that a call writes. -/
def callLines (n : Nat) (c : Call R) : List (List (List Char)) :=
  vlines fmt (callVertices c) ++ (callElements n c).map fun e => [e.1] :: e.2.map number

theorem loopOrder_nil : loopOrder ([] : List (Vec R)) = [] := by simp [loopOrder]

theorem call_eq (w : Obj) (c : Call R) :
    w.call fmt c =
      ⟨w.text ++ (callLines fmt w.index c).flatMap render, w.index + (callVertices c).length⟩ := by
  cases c with
  | point p =>
    simp [Obj.call, Obj.addPoint, callLines, callVertices, callElements, vlines, vertex_eq, render,
      joinWords]
  | line ps =>
    simp [Obj.call, Obj.addLine, callLines, callVertices, callElements, addVertices_eq, render,
      joinWords_head]
  | polygon ps nrm =>
    by_cases h : ps = []
    · subst h
      simp [Obj.call, Obj.addPolygon, callLines, callVertices, callElements, vlines, loopOrder_nil]
    · simp [Obj.call, Obj.addPolygon, callLines, callVertices, callElements, addVertices_eq, render,
        joinWords_head, h]

/-- Lines and elements written by a list of calls from vertex number `n` on. -/
def allLines (n : Nat) : List (Call R) → List (List (List Char))
  | [] => []
  | c :: cs => callLines fmt n c ++ allLines (n + (callVertices c).length) cs

def allElements (n : Nat) : List (Call R) → List (Char × List Nat)
  | [] => []
  | c :: cs => callElements n c ++ allElements (n + (callVertices c).length) cs

theorem calls_eq : ∀ (cs : List (Call R)) (w : Obj),
    (cs.foldl (Obj.call fmt) w).text = w.text ++ (allLines fmt w.index cs).flatMap render
  | [], w => by simp [allLines]
  | c :: cs, w => by
    rw [List.foldl_cons, calls_eq cs, call_eq]
    simp [allLines]

variable {fmt}

theorem element_letter {n : Nat} {c : Call R} {e : Char × List Nat} (he : e ∈ callElements n c) :
    e.1 = 'p' ∨ e.1 = 'l' ∨ e.1 = 'f' := by
  cases c with
  | point p => simp [callElements] at he; simp [he]
  | line ps => simp [callElements] at he; simp [he]
  | polygon ps nrm =>
    simp only [callElements] at he
    split at he
    · simp at he
    · simp at he; simp [he]

theorem good_lines (h : OneWord fmt) (n : Nat) (c : Call R) : ∀ l ∈ callLines fmt n c, Good l := by
  intro l hl
  simp only [callLines, vlines, List.mem_append, List.mem_map] at hl
  rcases hl with ⟨p, _, rfl⟩ | ⟨e, he, rfl⟩
  · refine ⟨by simp, ?_⟩
    intro w hw
    simp only [words, List.mem_cons, List.not_mem_nil, or_false] at hw
    rcases hw with rfl | rfl | rfl | rfl
    · decide
    all_goals exact h _
  · refine ⟨by simp, ?_⟩
    intro w hw
    simp only [List.mem_cons, List.mem_map] at hw
    rcases hw with rfl | ⟨k, _, rfl⟩
    · rcases element_letter he with h | h | h <;> rw [h] <;> decide
    · exact number_noblank k

theorem good_all (h : OneWord fmt) : ∀ (cs : List (Call R)) (n : Nat),
    ∀ l ∈ allLines fmt n cs, Good l
  | [], _, l, hl => by simp [allLines] at hl
  | c :: cs, n, l, hl => by
    rw [allLines, List.mem_append] at hl
    rcases hl with hl | hl
    · exact good_lines h n c l hl
    · exact good_all h cs _ l hl

theorem objFile_lines (h : OneWord fmt) (cs : List (Call R)) :
    fileLines (objFile fmt cs) = allLines fmt 1 cs := by
  rw [objFile, calls_eq]
  exact fileLines_render (good_all h cs 1)

def isVertex (l : List (List Char)) : Option (List (List Char)) :=
  match l with
  | ['v'] :: ws => some ws
  | _ => none

theorem isVertex_elem {c : Char} {ws : List (List Char)} (h : c ≠ 'v') : isVertex ([c] :: ws) = none := by
  unfold isVertex
  split
  · rename_i heq; simp at heq; exact absurd heq.1 h
  · rfl

theorem vertices_callLines (n : Nat) (c : Call R) :
    (callLines fmt n c).filterMap isVertex = (callVertices c).map (words fmt) := by
  have h1 : (vlines fmt (callVertices c)).filterMap isVertex = (callVertices c).map (words fmt) := by
    simp [vlines, List.filterMap_map, Function.comp_def, isVertex]
  have h2 : ((callElements n c).map fun e => [e.1] :: e.2.map number).filterMap isVertex = [] := by
    rw [List.filterMap_eq_nil_iff]
    intro l hl
    obtain ⟨e, he, rfl⟩ := List.mem_map.mp hl
    apply isVertex_elem
    rcases element_letter he with h | h | h <;> rw [h] <;> decide
  rw [callLines, List.filterMap_append, h1, h2, List.append_nil]

theorem filterMap_id_on {α : Type} {f : α → Option α} : ∀ {l : List α}, (∀ a ∈ l, f a = some a) →
    l.filterMap f = l
  | [], _ => rfl
  | a :: l, h => by
    rw [List.filterMap_cons, h a (by simp)]
    simp only [filterMap_id_on fun b hb => h b (List.mem_cons_of_mem a hb)]

theorem elements_callLines (n : Nat) (c : Call R) :
    (callLines fmt n c).filterMap objElement = callElements n c := by
  have h1 : (vlines fmt (callVertices c)).filterMap objElement = [] := by
    rw [List.filterMap_eq_nil_iff]
    intro l hl
    obtain ⟨p, _, rfl⟩ := List.mem_map.mp hl
    simp [objElement]
  have h2 : ((callElements n c).map fun e => [e.1] :: e.2.map number).filterMap objElement =
      callElements n c := by
    rw [List.filterMap_map]
    apply filterMap_id_on
    intro e he
    have hl := element_letter he
    simp only [Function.comp_def, objElement, hl, if_true, List.map_map, read_number]
    simp
  rw [callLines, List.filterMap_append, h1, h2, List.nil_append]

theorem vertices_allLines : ∀ (cs : List (Call R)) (n : Nat),
    (allLines fmt n cs).filterMap isVertex = (cs.flatMap callVertices).map (words fmt)
  | [], _ => by simp [allLines]
  | c :: cs, n => by
    rw [allLines, List.filterMap_append, vertices_callLines, vertices_allLines cs]; simp

theorem elements_allLines : ∀ (cs : List (Call R)) (n : Nat),
    (allLines fmt n cs).filterMap objElement = allElements n cs
  | [], _ => by simp [allLines, allElements]
  | c :: cs, n => by
    rw [allLines, List.filterMap_append, elements_callLines, elements_allLines cs, allElements]

theorem objVertices_file (h : OneWord fmt) (cs : List (Call R)) :
    objVertices (objFile fmt cs) = (cs.flatMap callVertices).map (words fmt) := by
  rw [objVertices, objFile_lines h]
  exact vertices_allLines cs 1

theorem objElements_file (h : OneWord fmt) (cs : List (Call R)) :
    objElements (objFile fmt cs) = allElements 1 cs := by
  rw [objElements, objFile_lines h, elements_allLines]

theorem loopOrder_eq {ps : List (Vec R)} (h : ps.length ≤ 2 ^ 32) :
    loopOrder ps = (ps.drop 1).reverse := by
  rw [loopOrder]
  congr 2
  apply List.take_of_length_le
  rcases Nat.eq_zero_or_pos ps.length with h0 | h0
  · omega
  · rw [Nat.mod_eq_of_lt (by omega)]; omega

/-- Numbers `n, n+1, …` designate the vertices written after `n - 1` others. -/
theorem resolve_range (pre vs post : List (List (List Char))) :
    (List.range' (pre.length + 1) vs.length).map
      (fun k => if k = 0 then none else (pre ++ vs ++ post)[k - 1]?) = vs.map some := by
  apply List.ext_getElem
  · simp
  · intro i h1 h2
    simp at h1
    simp only [List.getElem_map, List.getElem_range']
    have : pre.length + 1 + 1 * i - 1 = pre.length + i := by omega
    rw [if_neg (by omega), this, List.getElem?_append_left (by simp; omega),
      List.getElem?_append_right (by omega)]
    simp [h1]

/-- The elements that are not points show the vertices of their calls. -/
theorem shown_all (fmt : R → List Char) : ∀ (cs : List (Call R)) (pre : List (List (List Char)))
    (post : List (List (List Char))),
    (∀ ps nrm, Call.polygon ps nrm ∈ cs → ps.length ≤ 2 ^ 32) →
    ((allElements (pre.length + 1) cs).filter (fun e => decide (e.1 ≠ 'p'))).map
      (fun e => (e.1, e.2.map fun k => if k = 0 then none else
        (pre ++ (cs.flatMap callVertices).map (words fmt) ++ post)[k - 1]?)) =
    ((cs.filterMap shape).filter (fun e => decide (e.1 ≠ 'p'))).map
      (fun e => (e.1, e.2.map fun p => some (words fmt p)))
  | [], _, _, _ => by simp [allElements]
  | c :: cs, pre, post, hp => by
    have ih := shown_all fmt cs (pre ++ (callVertices c).map (words fmt)) post
      (fun ps nrm hm => hp ps nrm (by simp [hm]))
    have hlen : (pre ++ (callVertices c).map (words fmt)).length + 1 =
        pre.length + 1 + (callVertices c).length := by simp; omega
    have hcat : pre ++ ((c :: cs).flatMap callVertices).map (words fmt) ++ post =
        pre ++ (callVertices c).map (words fmt) ++ ((cs.flatMap callVertices).map (words fmt) ++ post) := by
      simp
    have hcat' : pre ++ ((c :: cs).flatMap callVertices).map (words fmt) ++ post =
        pre ++ (callVertices c).map (words fmt) ++ (cs.flatMap callVertices).map (words fmt) ++ post := by
      simp
    rw [hlen, ← hcat'] at ih
    rw [allElements, List.filter_append, List.map_append, ih]
    have hres := resolve_range pre ((callVertices c).map (words fmt))
      ((cs.flatMap callVertices).map (words fmt) ++ post)
    rw [← hcat] at hres
    cases c with
    | point p => simp [callElements, shape]
    | line ps =>
      simp only [callVertices, List.length_map, List.map_map] at hres
      have h1 : shape (Call.line ps) = some ('l', ps) := rfl
      have h2 : decide (('l' : Char) ≠ 'p') = true := rfl
      rw [List.filterMap_cons_some h1]
      simp only [callElements, List.filter_cons, List.filter_nil, h2, if_true, List.map_cons,
        List.map_nil, callVertices]
      rw [hres]
      simp [Function.comp_def]
    | polygon ps nrm =>
      cases ps with
      | nil => simp [callElements, shape, List.filterMap_cons]
      | cons q qs =>
        have hl := loopOrder_eq (hp (q :: qs) nrm (by simp))
        simp only [List.drop_succ_cons, List.drop_zero] at hl
        simp only [callVertices, List.length_map, List.map_map] at hres
        have h1 : shape (Call.polygon (q :: qs) nrm) = some ('f', qs.reverse) := rfl
        have h2 : decide (('f' : Char) ≠ 'p') = true := rfl
        have h3 : (q :: qs).isEmpty = false := rfl
        rw [List.filterMap_cons_some h1]
        simp only [callElements, List.filter_cons, List.filter_nil, h2, h3, if_true, List.map_cons,
          List.map_nil, callVertices, Bool.false_eq_true, if_false]
        rw [hres]
        simp [Function.comp_def, hl]

theorem numbers_all : ∀ (cs : List (Call R)) (n : Nat), ∀ e ∈ allElements n cs, ∀ k ∈ e.2,
    n ≤ k ∧ k < n + (cs.flatMap callVertices).length + (if e.1 = 'p' then 1 else 0)
  | [], n, e, he => by simp [allElements] at he
  | c :: cs, n, e, he => by
    intro k hk
    rw [allElements, List.mem_append] at he
    simp only [List.flatMap_cons, List.length_append]
    rcases he with he | he
    · cases c with
      | point p => simp [callElements] at he; subst he; simp at hk; subst hk; simp only [callVertices, List.length_singleton, if_pos]; omega
      | line ps =>
        simp [callElements] at he; subst he
        simp [List.mem_range'] at hk
        obtain ⟨i, hi, rfl⟩ := hk
        simp [callVertices]; omega
      | polygon ps nrm =>
        simp only [callElements] at he
        split at he
        · simp at he
        · simp at he; subst he
          simp [List.mem_range'] at hk
          obtain ⟨i, hi, rfl⟩ := hk
          simp [callVertices]; omega
    · have := numbers_all cs _ e he k hk
      omega

theorem allElements_append : ∀ (cs ds : List (Call R)) (n : Nat),
    allElements n (cs ++ ds) =
      allElements n cs ++ allElements (n + (cs.flatMap callVertices).length) ds
  | [], _, _ => by simp [allElements]
  | c :: cs, ds, n => by
    simp [allElements, allElements_append cs ds, Nat.add_assoc]

/-! ### XYZ and PCD -/

theorem xyz_eq (fmt : R → List Char) : ∀ (cs : List (Call R)) (t : List Char),
    cs.foldl (xyzCall fmt) t = t ++ ((pointsOf cs).map (words fmt)).flatMap render
  | [], t => by simp [pointsOf]
  | c :: cs, t => by
    rw [List.foldl_cons, xyz_eq fmt cs]
    cases c <;> simp [xyzCall, pointsOf, coords_eq]

theorem pcd_eq (fmt : R → List Char) : ∀ (cs : List (Call R)) (t : List Char),
    cs.foldl (pcdCall fmt) t = t ++ ((pointsOf cs).map (words fmt)).flatMap render
  | [], t => by simp [pointsOf]
  | c :: cs, t => by
    rw [List.foldl_cons, pcd_eq fmt cs]
    cases c <;> simp [pcdCall, pointsOf, coords_eq]

theorem good_words (h : OneWord fmt) (p : Vec R) : Good (words fmt p) := by
  refine ⟨by simp [words], ?_⟩
  intro w hw
  simp only [words, List.mem_cons, List.not_mem_nil, or_false] at hw
  rcases hw with rfl | rfl | rfl <;> exact h _

/-- The words of the header. -/
def headerLines : List (List (List Char)) :=
  [["#", ".PCD", "v.7", "-", "Point", "Cloud", "Data", "file", "format"], ["VERSION", ".7"],
   ["FIELDS", "x", "y", "z"], ["SIZE", "4", "4", "4"], ["TYPE", "F", "F", "F"], ["POINTS", "0"],
   ["DATA", "ascii"]].map fun l => l.map String.toList

theorem pcdHeader_eq : pcdHeader = headerLines.flatMap render := by decide +kernel

theorem good_header : ∀ l ∈ headerLines, Good l := by
  intro l hl
  have h : headerLines.all (fun l => !l.isEmpty && l.all fun w => !w.contains ' ' && !w.contains '\n') =
    true := by decide +kernel
  have := List.all_eq_true.mp h l hl
  simp only [Bool.and_eq_true, Bool.not_eq_true', List.isEmpty_eq_false_iff, List.all_eq_true] at this
  refine ⟨this.1, fun w hw => ?_⟩
  have := this.2 w hw
  simpa using this

theorem pcd_lines (h : OneWord fmt) (cs : List (Call R)) :
    fileLines (pcdFile fmt cs) = headerLines ++ (pointsOf cs).map (words fmt) := by
  rw [pcdFile, pcd_eq, pcdHeader_eq, ← List.flatMap_append]
  apply fileLines_render
  intro l hl
  rcases List.mem_append.mp hl with hl | hl
  · exact good_header l hl
  · obtain ⟨p, _, rfl⟩ := List.mem_map.mp hl
    exact good_words h p

end RgbdSlam.Writer
