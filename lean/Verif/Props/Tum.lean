import Verif.Lemmas.Tum

/-
Properties of the reader of TUM datasets and of the choice of frames.
-/
namespace RgbdSlam.Tum

open Spec

variable {G : Type}

/-- C51: the images of a file are its lines with a path and a positive time; of several lines with the same
time, the first. -/
theorem C51_parse_images (lines : List (ℚ × String)) :
    SortedMap (parseFile lines) ∧
    ∀ e, e ∈ parseFile lines ↔ FirstAt (fun l => l.2 ≠ "" ∧ 0 < l.1) lines e :=
  parse_spec lines

/-- C51: the ground truth is made of the first line of each time. -/
theorem C51_parse_truth (lines : List (ℚ × G)) :
    SortedMap (parseGroundTruth lines) ∧
    ∀ e, e ∈ parseGroundTruth lines ↔ FirstAt (fun _ => True) lines e := by
  have := parse_spec (valid := fun _ : ℚ × G => True) lines
  simpa [parseGroundTruth] using this

/-- The frames before the final sort. -/
def unsorted (order : List Candidate) (rgb depth : TimeMap String) : List (Frame G) :=
  (associateAll order rgb depth).1 ++ withoutDepth (associateAll (G := G) order rgb depth).2.1

theorem mem_withoutDepth {rgb : TimeMap String} {f : Frame G} (h : f ∈ withoutDepth (G := G) rgb) :
    f.rgb ∈ rgb ∧ f.depth = none := by
  obtain ⟨r, hr, rfl⟩ := List.mem_map.1 h
  exact ⟨hr, rfl⟩

theorem filterMap_withoutDepth (rgb : TimeMap String) : (withoutDepth (G := G) rgb).filterMap (·.depth) = [] := by
  rw [List.filterMap_eq_nil_iff]
  intro f hf
  exact (mem_withoutDepth hf).2

/-- What is known of the frames before the final sort. -/
theorem unsorted_spec {rgb depth : TimeMap String} (hr : SortedMap rgb) (hd : SortedMap depth)
    {order : List Candidate}
    (ho : SortsTo (fun a b : Candidate => a.score < b.score) (candidates 0 (15 / 100) rgb depth) (.ok order)) :
    ((unsorted (G := G) order rgb depth).map (·.rgb)).Perm rgb ∧
    ((unsorted (G := G) order rgb depth).filterMap (·.depth)).Nodup ∧
    (∀ f ∈ unsorted (G := G) order rgb depth, ∀ d, f.depth = some d → d ∈ depth ∧ |f.rgb.1 - d.1| < 15 / 100) ∧
    (∀ r ∈ rgb, ∀ d ∈ depth, |r.1 - d.1| < 15 / 100 →
      ∃ f ∈ unsorted (G := G) order rgb depth, ∃ d', f.depth = some d' ∧ (f.rgb = r ∨ d' = d) ∧
        |f.rgb.1 - d'.1| ≤ |r.1 - d.1|) := by
  cases ho with
  | sorted hw hp hs =>
    obtain ⟨a1, a2, a3, a4⟩ := associateAll_spec (G := G) order rgb depth hr hd (hs.imp fun h => not_lt.1 h)
    refine ⟨?_, ?_, ?_, ?_⟩
    · rw [unsorted, List.map_append]
      have : (withoutDepth (G := G) (associateAll (G := G) order rgb depth).2.1).map (·.rgb) =
          (associateAll (G := G) order rgb depth).2.1 := by
        simp [withoutDepth, Function.comp_def]
      rw [this]
      exact a1
    · rw [unsorted, List.filterMap_append, filterMap_withoutDepth, List.append_nil]
      exact (List.nodup_append.1 (a2.nodup_iff.2 hd.nodup)).1
    · intro f hf d hfd
      rcases List.mem_append.1 hf with hf | hf
      · refine ⟨a2.mem_iff.1 (List.mem_append_left _ (List.mem_filterMap.2 ⟨f, hf, hfd⟩)), ?_⟩
        obtain ⟨c, hc, d', hd', h1, h2⟩ := a3 f hf
        rw [hfd] at hd'
        obtain rfl := Option.some.inj hd'
        obtain ⟨r, _, x, _, hlt, rfl⟩ := (mem_candidates hd).1 (hp.mem_iff.1 hc)
        rw [h1, h2]
        simpa using hlt
      · rw [(mem_withoutDepth hf).2] at hfd; cases hfd
    · intro r hr' d hd' hlt
      have hc : ({ score := |r.1 - (d.1 + 0)|, rgb := r.1, depth := d.1 } : Candidate) ∈ order :=
        hp.mem_iff.2 ((mem_candidates hd).2 ⟨r, hr', d, hd', by simpa using hlt, rfl⟩)
      obtain ⟨f, hf, d', h1, h2, c', hc', h3, h4, h5⟩ := a4 _ hc r hr' d hd' rfl rfl
      obtain ⟨r', _, x, _, _, rfl⟩ := (mem_candidates hd).1 (hp.mem_iff.1 hc')
      refine ⟨f, List.mem_append_left _ hf, d', h1, h2, ?_⟩
      rw [h3, h4]
      simpa using h5

theorem rgb_inj {rgb : TimeMap String} (hr : SortedMap rgb) {l : List (Frame G)} (hp : (l.map (·.rgb)).Perm rgb) :
    l.Pairwise fun a b => a.rgb.1 ≠ b.rgb.1 := by
  have h : (l.map (·.rgb)).Pairwise fun a b => a.1 ≠ b.1 :=
    (hp.pairwise_iff (fun {a b} h => Ne.symm h)).2 (hr.imp fun h => ne_of_lt h)
  rw [List.pairwise_map] at h
  exact h

theorem pairwise_eq_or {α : Type} {R : α → α → Prop} (hsymm : ∀ a b, R a b → R b a) : ∀ {l : List α}, l.Pairwise R →
    ∀ a ∈ l, ∀ b ∈ l, a = b ∨ R a b
  | [], _, a, ha, _, _ => by simp at ha
  | x :: l, h, a, ha, b, hb => by
    obtain ⟨h1, h2⟩ := List.pairwise_cons.1 h
    rcases List.mem_cons.1 ha with ha | ha <;> rcases List.mem_cons.1 hb with hb | hb
    · exact Or.inl (by rw [ha, hb])
    · rw [ha]; exact Or.inr (h1 b hb)
    · rw [hb]; exact Or.inr (hsymm _ _ (h1 a ha))
    · exact pairwise_eq_or hsymm h2 a ha b hb

theorem unsorted_key {rgb : TimeMap String} (hr : SortedMap rgb) {l : List (Frame G)}
    (hp : (l.map (·.rgb)).Perm rgb) : ∀ f ∈ l, ∀ g ∈ l, f.rgb.1 = g.rgb.1 → f = g := by
  intro f hf g hg h
  rcases pairwise_eq_or (fun a b h => Ne.symm h) (rgb_inj hr hp) f hf g hg with h' | h'
  · exact h'
  · exact absurd h h'

/-- What is known of the result. -/
theorem result_spec {rgb depth : TimeMap String} {truth : TimeMap G} {out : List (Frame G)} (h : Associates rgb depth truth (.ok out)) :
    ∃ order sorted, SortsTo (fun a b : Candidate => a.score < b.score) (candidates 0 (15 / 100) rgb depth) (.ok order) ∧
      SortsTo before (unsorted order rgb depth) (.ok sorted) ∧ out = assignGroundTruth sorted truth := by
  generalize ho : (Outcome.ok out : Outcome (List (Frame G))) = o at h
  cases h with
  | run h1 h2 =>
    rename_i order sorted
    cases sorted with
    | ok l =>
      exact ⟨order, l, h1, h2, Outcome.ok.inj ho⟩
    | _ => cases ho

/-- Frames of the result and frames before the ground truth is added. -/
theorem mem_assign {frames : List (Frame G)} {truth : TimeMap G} (ht : SortedMap truth) {f : Frame G}
    (hf : f ∈ assignGroundTruth frames truth) : ∃ f' ∈ frames, f'.rgb = f.rgb ∧ f'.depth = f.depth := by
  have h := (assignGroundTruth_spec frames truth ht).1
  have : (f.rgb, f.depth) ∈ (assignGroundTruth frames truth).map fun f => (f.rgb, f.depth) :=
    List.mem_map.2 ⟨f, hf, rfl⟩
  rw [h] at this
  obtain ⟨f', hf', he⟩ := List.mem_map.1 this
  obtain ⟨e1, e2⟩ := Prod.mk.inj he
  exact ⟨f', hf', e1, e2⟩

/-- C51 (partial: a run may end in undefined behaviour instead, see `C51_order_undefined_false`): when the
dataset is read, the association is what the user expects. -/
theorem C51_association_partial (rgbLines depthLines : List (ℚ × String)) (truthLines : List (ℚ × G))
    {out : List (Frame G)} (h : ParsesTo rgbLines depthLines truthLines (.ok out)) :
    Association (parseFile rgbLines) (parseFile depthLines) (parseGroundTruth truthLines) out := by
  have hr := (C51_parse_images rgbLines).1
  have hd := (C51_parse_images depthLines).1
  have ht := (C51_parse_truth truthLines).1
  obtain ⟨order, sorted, h1, h2, rfl⟩ := result_spec h
  clear h
  generalize parseFile rgbLines = rgb at *
  generalize parseFile depthLines = depth at *
  generalize parseGroundTruth truthLines = truth at *
  obtain ⟨a1, a2, a3, -⟩ := unsorted_spec (G := G) hr hd h1
  obtain ⟨b1, b2⟩ := assignGroundTruth_spec sorted truth ht
  cases h2 with
  | sorted hw hp hs =>
    have hrgb : (assignGroundTruth sorted truth).map (·.rgb) = sorted.map (·.rgb) := by
      have := congrArg (List.map Prod.fst) b1
      simpa [Function.comp_def] using this
    have hdep : (assignGroundTruth sorted truth).filterMap (·.depth) = sorted.filterMap (·.depth) := by
      have := congrArg (List.filterMap Prod.snd) b1
      simpa [List.filterMap_map, Function.comp_def] using this
    have hkey := unsorted_key hr a1
    have hnc := (strictWeak_before (fun f hf g hg h => by rw [hkey f hf g hg h])).1 hw
    have hclosest : ∀ f ∈ assignGroundTruth sorted truth, ∀ g, f.groundTruth = some g →
        g ∈ truth ∧ |f.rgb.1 - g.1| < 5 / 100 := by
      intro f hf g hg
      obtain ⟨pre, post, he⟩ := List.append_of_mem hf
      have := b2 pre f post he
      rw [hg] at this
      exact ⟨(List.mem_filter.1 this.1).1, this.2.1⟩
    have hdk : ∀ f ∈ assignGroundTruth sorted truth, ∀ d, f.depth = some d →
        d ∈ depth ∧ |f.rgb.1 - d.1| < 15 / 100 := by
      intro f hf d hfd
      obtain ⟨f', hf', e1, e2⟩ := mem_assign ht hf
      rw [← e1]
      exact a3 f' (hp.mem_iff.1 hf') d (by rw [e2, hfd])
    refine ⟨?_, fun f hf d h => (hdk f hf d h).1, ?_, fun f hf d h => (hdk f hf d h).2,
      fun f hf g h => (hclosest f hf g h).1, ?_, fun f hf g h => (hclosest f hf g h).2, ?_⟩
    · rw [hrgb]
      exact (hp.map _).trans a1
    · rw [hdep]
      exact (hp.filterMap _).nodup_iff.2 a2
    · -- ground truth used once
      have key : ∀ (l pre : List (Frame G)), assignGroundTruth sorted truth = pre ++ l →
          (l.filterMap (·.groundTruth)).Pairwise (fun a b => a.1 ≠ b.1) ∧
          ∀ g ∈ l.filterMap (·.groundTruth), ∀ g' ∈ pre.filterMap (·.groundTruth), g.1 ≠ g'.1 := by
        intro l
        induction l with
        | nil => intro pre _; simp
        | cons f l ih =>
          intro pre he
          obtain ⟨i1, i2⟩ := ih (pre ++ [f]) (by rw [he]; simp)
          have hc := b2 pre f l he
          cases hg : f.groundTruth with
          | none =>
            simp only [List.filterMap_cons, hg]
            refine ⟨i1, fun g hgm g' hg' => i2 g hgm g' ?_⟩
            rw [List.filterMap_append]
            exact List.mem_append_left _ hg'
          | some x =>
            rw [hg] at hc
            simp only [List.filterMap_cons, hg]
            refine ⟨List.pairwise_cons.2 ⟨fun g hgm => ?_, i1⟩, fun g hgm g' hg' => ?_⟩
            · exact (i2 g hgm x (by rw [List.filterMap_append]; simp [hg])).symm
            · rcases List.mem_cons.1 hgm with rfl | hgm
              · have := (List.mem_filter.1 hc.1).2
                simp only [decide_eq_true_eq] at this
                exact this g' hg'
              · exact i2 g hgm g' (by rw [List.filterMap_append]; exact List.mem_append_left _ hg')
      exact (key _ [] (by simp)).1
    · have hsort : (sorted.map (·.rgb)).Pairwise fun a b => a.1 < b.1 := by
        rw [List.pairwise_map]
        have hne := rgb_inj hr ((hp.map _).trans a1)
        refine (List.Pairwise.and_mem.1 (hs.and hne)).imp ?_
        rintro a b ⟨ha, hb, hnb, hne⟩
        rw [before_iff hnc (fun f hf g hg h => by rw [hkey f hf g hg h]) (hp.mem_iff.1 hb) (hp.mem_iff.1 ha)] at hnb
        exact lt_of_le_of_ne (not_lt.1 hnb) hne
      rw [← hrgb, List.pairwise_map] at hsort
      exact hsort

/-- C51: every dataset has a run, and it either returns or ends in undefined behaviour. -/
theorem C51_total (rgbLines depthLines : List (ℚ × String)) (truthLines : List (ℚ × G)) :
    (∃ o, ParsesTo rgbLines depthLines truthLines o) ∧
    ∀ o, ParsesTo rgbLines depthLines truthLines o → o = .ub ∨ ∃ out, o = .ok out := by
  constructor
  · obtain ⟨l, h1, h2⟩ := exists_sorted
      (strictWeak_score (candidates 0 (15 / 100) (parseFile rgbLines) (parseFile depthLines)))
    obtain ⟨o, ho⟩ := exists_sortsTo before (unsorted (G := G) l (parseFile rgbLines) (parseFile depthLines))
    exact ⟨_, .run (.sorted (strictWeak_score _) h1 h2) ho⟩
  · rintro o ⟨-, h⟩
    cases h with
    | sorted => exact Or.inr ⟨_, rfl⟩
    | invalid => exact Or.inl rfl

/-- C51: the undefined behaviour happens exactly when two associations are crossed: the comparison of the
final sort is then not an order. -/
theorem C51_undefined_iff_crossed (rgbLines depthLines : List (ℚ × String))
    {order : List Candidate}
    (ho : SortsTo (fun a b : Candidate => a.score < b.score)
      (candidates 0 (15 / 100) (parseFile rgbLines) (parseFile depthLines)) (.ok order)) :
    SortsTo before (unsorted (G := G) order (parseFile rgbLines) (parseFile depthLines)) .ub ↔
      ∃ f ∈ unsorted (G := G) order (parseFile rgbLines) (parseFile depthLines),
        ∃ g ∈ unsorted (G := G) order (parseFile rgbLines) (parseFile depthLines), Crossed f g := by
  have hr := (C51_parse_images rgbLines).1
  have hd := (C51_parse_images depthLines).1
  have hkey := unsorted_key hr (unsorted_spec (G := G) hr hd ho).1
  have hiff := strictWeak_before (fun f hf g hg h => by rw [hkey f hf g hg h])
  constructor
  · intro h
    generalize ho : (Outcome.ub : Outcome (List (Frame G))) = o at h
    cases h with
    | sorted => cases ho
    | invalid h =>
      rw [hiff] at h
      push Not at h
      exact h
  · rintro ⟨f, hf, g, hg, h⟩
    exact .invalid fun h' => hiff.1 h' f hf g hg h

/-- Colour images at 20 Hz and depth images at 20 Hz, 2 hundredths of a second later. -/
def exampleRgb : List (ℚ × String) := [(1010 / 100, "r1"), (1015 / 100, "r2")]
def exampleDepth : List (ℚ × String) := [(1007 / 100, "d1"), (1012 / 100, "d2")]

theorem example_order {order : List Candidate}
    (h : SortsTo (fun a b : Candidate => a.score < b.score)
      (candidates 0 (15 / 100) (parseFile exampleRgb) (parseFile exampleDepth)) (.ok order)) :
    ∃ a b, order = { score := 2 / 100, rgb := 1010 / 100, depth := 1012 / 100 } :: a :: b ∧
      (a :: b).Perm [{ score := 3 / 100, rgb := 1010 / 100, depth := 1007 / 100 },
        { score := 8 / 100, rgb := 1015 / 100, depth := 1007 / 100 },
        { score := 3 / 100, rgb := 1015 / 100, depth := 1012 / 100 }] := by
  have hc : candidates 0 (15 / 100) (parseFile exampleRgb) (parseFile exampleDepth) =
      [{ score := 3 / 100, rgb := 1010 / 100, depth := 1007 / 100 },
        { score := 2 / 100, rgb := 1010 / 100, depth := 1012 / 100 },
        { score := 8 / 100, rgb := 1015 / 100, depth := 1007 / 100 },
        { score := 3 / 100, rgb := 1015 / 100, depth := 1012 / 100 }] := by decide +kernel
  rw [hc] at h
  cases h with
  | sorted hw hp hs =>
    have hlen := hp.length_eq
    rcases order with _ | ⟨c, _ | ⟨a, b⟩⟩
    · simp at hlen
    · simp at hlen
    · have hmem : ({ score := 2 / 100, rgb := 1010 / 100, depth := 1012 / 100 } : Candidate) ∈ c :: a :: b :=
        hp.mem_iff.2 (by simp)
      have hcm := hp.mem_iff.1 (List.mem_cons_self (a := c) (l := a :: b))
      have hceq : c = { score := 2 / 100, rgb := 1010 / 100, depth := 1012 / 100 } := by
        rcases List.mem_cons.1 hmem with h | h
        · exact h.symm
        · have := (List.pairwise_cons.1 hs).1 _ h
          simp only [List.mem_cons, List.not_mem_nil, or_false] at hcm
          rcases hcm with rfl | rfl | rfl | rfl
          · norm_num at this
          · rfl
          · norm_num at this
          · norm_num at this
      subst hceq
      refine ⟨a, b, rfl, ?_⟩
      exact (hp.trans (List.Perm.swap _ _ _)).cons_inv

/-- C51 is false: every run on these images ends in undefined behaviour, because the nearest images are
associated first and the remaining ones, which are within the tolerance, are then associated crosswise. -/
theorem C51_order_undefined_false (truthLines : List (ℚ × G)) :
    (∃ o, ParsesTo exampleRgb exampleDepth truthLines o) ∧
    ∀ o, ParsesTo exampleRgb exampleDepth truthLines o → o = .ub := by
  refine ⟨(C51_total _ _ _).1, ?_⟩
  rintro o ⟨h1, h2⟩
  rename_i order sorted
  obtain ⟨a, b, rfl, hp⟩ := example_order h1
  have hlen : b.length = 2 := by simpa using hp.length_eq
  have hr : parseFile exampleRgb = exampleRgb := by decide +kernel
  have hd : parseFile exampleDepth = exampleDepth := by decide +kernel
  -- the frames
  have key : ∀ cs : List Candidate, (∀ c ∈ cs, c.rgb = 1015 / 100 ∧ c.depth = 1007 / 100 ∨
        c.rgb = 1010 / 100 ∨ c.depth = 1012 / 100) →
      (∃ c ∈ cs, c.rgb = 1015 / 100 ∧ c.depth = 1007 / 100) →
      (associateAll (G := G) cs [(1015 / 100, "r2")] [(1007 / 100, "d1")]).1 =
        [{ rgb := (1015 / 100, "r2"), depth := some (1007 / 100, "d1"), groundTruth := none }] := by
    intro cs
    induction cs with
    | nil => simp
    | cons c cs ih =>
      intro hall hex
      by_cases hc : c.rgb = 1015 / 100 ∧ c.depth = 1007 / 100
      · have : ∀ l : List Candidate, associateAll (G := G) l [] [] = ([], [], []) := by
          intro l
          induction l with
          | nil => rfl
          | cons x l ih => simp [associateAll, associateOne, find?, ih]
        simp [associateAll, associateOne, find?, hc.1, hc.2, erase, this]
      · have hcase := (hall c List.mem_cons_self).resolve_left hc
        have hone : associateOne (G := G) c [(1015 / 100, "r2")] [(1007 / 100, "d1")] =
            (none, [(1015 / 100, "r2")], [(1007 / 100, "d1")]) := by
          rcases hcase with h | h
          · have : find? c.rgb [((1015 / 100 : ℚ), "r2")] = none := by rw [h]; decide +kernel
            unfold associateOne; rw [this]
          · have : find? c.depth [((1007 / 100 : ℚ), "d1")] = none := by rw [h]; decide +kernel
            unfold associateOne; rw [this]; cases find? c.rgb [((1015 / 100 : ℚ), "r2")] <;> rfl
        rw [associateAll, hone]
        simp only [Option.toList_none, List.nil_append]
        refine ih (fun x hx => hall x (List.mem_cons_of_mem _ hx)) ?_
        obtain ⟨x, hx, hx'⟩ := hex
        rcases List.mem_cons.1 hx with rfl | hx
        · exact absurd hx' hc
        · exact ⟨x, hx, hx'⟩
  have hfirst : associateOne (G := G) { score := 2 / 100, rgb := 1010 / 100, depth := 1012 / 100 } exampleRgb exampleDepth =
      (some { rgb := (1010 / 100, "r1"), depth := some (1012 / 100, "d2"), groundTruth := none },
        [(1015 / 100, "r2")], [(1007 / 100, "d1")]) := by
    have e1 : find? (1010 / 100) exampleRgb = some "r1" := by decide +kernel
    have e2 : find? (1012 / 100) exampleDepth = some "d2" := by decide +kernel
    have e3 : erase (1010 / 100) exampleRgb = [(1015 / 100, "r2")] := by decide +kernel
    have e4 : erase (1012 / 100) exampleDepth = [(1007 / 100, "d1")] := by decide +kernel
    unfold associateOne
    simp only [e1, e2, e3, e4]
  have hrest := key (a :: b) (fun c hc => by
      have := hp.mem_iff.1 hc
      simp only [List.mem_cons, List.not_mem_nil, or_false] at this
      rcases this with rfl | rfl | rfl
      · exact Or.inr (Or.inl rfl)
      · exact Or.inl ⟨rfl, rfl⟩
      · exact Or.inr (Or.inr rfl))
    ⟨_, hp.mem_iff.2 (List.mem_cons_of_mem _ List.mem_cons_self), rfl, rfl⟩
  have hall : (associateAll (G := G) ({ score := 2 / 100, rgb := 1010 / 100, depth := 1012 / 100 } :: a :: b)
      exampleRgb exampleDepth).1 =
      [{ rgb := (1010 / 100, "r1"), depth := some (1012 / 100, "d2"), groundTruth := none },
        { rgb := (1015 / 100, "r2"), depth := some (1007 / 100, "d1"), groundTruth := none }] := by
    rw [associateAll, hfirst]
    simp only [Option.toList_some, hrest]
    rfl
  have hub := (C51_undefined_iff_crossed (G := G) exampleRgb exampleDepth h1).2
    ⟨{ rgb := (1010 / 100, "r1"), depth := some (1012 / 100, "d2"), groundTruth := none }, by
      rw [hr, hd, unsorted, hall]; simp,
    { rgb := (1015 / 100, "r2"), depth := some (1007 / 100, "d1"), groundTruth := none }, by
      rw [hr, hd, unsorted, hall]; simp,
    by norm_num, _, _, rfl, rfl, by norm_num⟩
  cases h2 with
  | sorted hw _ _ =>
    generalize ho : (Outcome.ub : Outcome (List (Frame G))) = o at hub
    cases hub with
    | sorted => cases ho
    | invalid h => exact absurd hw h
  | invalid => rfl

/-- Two images of each kind that are not crossed: there is a run that returns. -/
example : ∃ out : List (Frame Unit),
    ParsesTo [(10, "r1"), (11, "r2")] [(1001 / 100, "d1"), (1101 / 100, "d2")] [(10, ())] (.ok out) := by
  have ho : SortsTo (fun a b : Candidate => a.score < b.score)
      (candidates 0 (15 / 100) (parseFile [(10, "r1"), (11, "r2")]) (parseFile [(1001 / 100, "d1"), (1101 / 100, "d2")]))
      (.ok [{ score := 1 / 100, rgb := 10, depth := 1001 / 100 }, { score := 1 / 100, rgb := 11, depth := 1101 / 100 }]) := by
    have : candidates 0 (15 / 100) (parseFile [(10, "r1"), (11, "r2")])
        (parseFile [(1001 / 100, "d1"), (1101 / 100, "d2")]) =
        [{ score := 1 / 100, rgb := 10, depth := 1001 / 100 }, { score := 1 / 100, rgb := 11, depth := 1101 / 100 }] := by
      decide +kernel
    rw [this]
    exact .sorted (strictWeak_score _) (List.Perm.refl _) (by simp)
  have hu : unsorted (G := Unit)
      [{ score := 1 / 100, rgb := 10, depth := 1001 / 100 }, { score := 1 / 100, rgb := 11, depth := 1101 / 100 }]
      (parseFile [(10, "r1"), (11, "r2")]) (parseFile [(1001 / 100, "d1"), (1101 / 100, "d2")]) =
      [{ rgb := (10, "r1"), depth := some (1001 / 100, "d1"), groundTruth := none },
        { rgb := (11, "r2"), depth := some (1101 / 100, "d2"), groundTruth := none }] := by
    have e1 : parseFile [(10, "r1"), (11, "r2")] = [(10, "r1"), (11, "r2")] := by decide +kernel
    have e2 : parseFile [(1001 / 100, "d1"), (1101 / 100, "d2")] = [(1001 / 100, "d1"), (1101 / 100, "d2")] := by
      decide +kernel
    rw [e1, e2]
    norm_num [unsorted, associateAll, associateOne, find?, erase, withoutDepth]
  obtain ⟨o, hso⟩ := exists_sortsTo before (unsorted (G := Unit)
    [{ score := 1 / 100, rgb := 10, depth := 1001 / 100 }, { score := 1 / 100, rgb := 11, depth := 1101 / 100 }]
    (parseFile [(10, "r1"), (11, "r2")]) (parseFile [(1001 / 100, "d1"), (1101 / 100, "d2")]))
  cases hso with
  | sorted hw hp hs => exact ⟨_, .run ho (.sorted hw hp hs)⟩
  | invalid h =>
    obtain ⟨f, hf, g, hg, hlt, x, y, hx, hy, hyx⟩ :=
      (C51_undefined_iff_crossed (G := Unit) [(10, "r1"), (11, "r2")] [(1001 / 100, "d1"), (1101 / 100, "d2")] ho).1
        (.invalid h)
    rw [hu] at hf hg
    simp only [List.mem_cons, List.not_mem_nil, or_false] at hf hg
    rcases hf with rfl | rfl <;> rcases hg with rfl | rfl <;> simp at hlt hx hy
    · subst hx; subst hy; norm_num at hyx
    · norm_num at hlt

/-! ## C93: nearest images first -/

/-- C93: no two images are closer to each other than to the images they are associated with: when a colour
and a depth image within the tolerance are not associated together, one of them is associated with an
image at least as close. -/
theorem C93_no_closer_pair (rgbLines depthLines : List (ℚ × String)) (truthLines : List (ℚ × G))
    {out : List (Frame G)} (h : ParsesTo rgbLines depthLines truthLines (.ok out))
    {r d : ℚ × String} (hr' : r ∈ parseFile rgbLines) (hd' : d ∈ parseFile depthLines) (hlt : |r.1 - d.1| < 15 / 100) :
    ∃ f ∈ out, ∃ d', f.depth = some d' ∧ (f.rgb = r ∨ d' = d) ∧ |f.rgb.1 - d'.1| ≤ |r.1 - d.1| := by
  have hr := (C51_parse_images rgbLines).1
  have hd := (C51_parse_images depthLines).1
  have ht := (C51_parse_truth truthLines).1
  obtain ⟨order, sorted, h1, h2, rfl⟩ := result_spec h
  obtain ⟨-, -, -, a4⟩ := unsorted_spec (G := G) hr hd h1
  obtain ⟨f, hf, d', h3, h4, h5⟩ := a4 r hr' d hd' hlt
  cases h2 with
  | sorted hw hp hs =>
    have hmem : (f.rgb, f.depth) ∈ sorted.map fun f => (f.rgb, f.depth) :=
      List.mem_map.2 ⟨f, hp.mem_iff.2 hf, rfl⟩
    rw [← (assignGroundTruth_spec sorted _ ht).1] at hmem
    obtain ⟨f', hf', he⟩ := List.mem_map.1 hmem
    obtain ⟨e1, e2⟩ := Prod.mk.inj he
    exact ⟨f', hf', d', by rw [e2, h3], by rw [e1]; exact h4, by rw [e1]; exact h5⟩

/-! ## C94: ground truth -/

/-- C94 (partial: closest among the elements that earlier frames did not take): the ground truth of a frame
is the closest in time, when one is within 5 hundredths of a second. -/
theorem C94_closest_remaining_partial (rgbLines depthLines : List (ℚ × String)) (truthLines : List (ℚ × G))
    {out : List (Frame G)} (h : ParsesTo rgbLines depthLines truthLines (.ok out))
    {pre post : List (Frame G)} {f : Frame G} (he : out = pre ++ f :: post) :
    (∀ g, f.groundTruth = some g → ∀ e ∈ parseGroundTruth truthLines,
      (∀ x ∈ pre, ∀ y, x.groundTruth = some y → e.1 ≠ y.1) → |f.rgb.1 - g.1| ≤ |f.rgb.1 - e.1|) ∧
    (f.groundTruth = none → ∀ e ∈ parseGroundTruth truthLines,
      (∀ x ∈ pre, ∀ y, x.groundTruth = some y → e.1 ≠ y.1) → 5 / 100 ≤ |f.rgb.1 - e.1|) := by
  have hr := (C51_parse_images rgbLines).1
  have hd := (C51_parse_images depthLines).1
  have ht := (C51_parse_truth truthLines).1
  obtain ⟨order, sorted, h1, h2, hout⟩ := result_spec h
  have hc := (assignGroundTruth_spec sorted _ ht).2 pre f post (by rw [← hout, he])
  have hmem : ∀ e ∈ parseGroundTruth truthLines, (∀ x ∈ pre, ∀ y, x.groundTruth = some y → e.1 ≠ y.1) →
      e ∈ (parseGroundTruth truthLines).filter fun e => ∀ g ∈ pre.filterMap (·.groundTruth), e.1 ≠ g.1 := by
    intro e he' hx
    refine List.mem_filter.2 ⟨he', ?_⟩
    simp only [decide_eq_true_eq]
    intro g hg
    obtain ⟨x, hx1, hx2⟩ := List.mem_filterMap.1 hg
    exact hx x hx1 g hx2
  constructor
  · intro g hg e he' hx
    rw [hg] at hc
    exact hc.2.2 e (hmem e he' hx)
  · intro hg e he' hx
    rw [hg] at hc
    exact hc e (hmem e he' hx)

/-- C94 is false in general: the first frame takes an element that is closer to the second. -/
theorem C94_closest_false :
    ∃ out : List (Frame Unit), ParsesTo [(10, "r1"), (1003 / 100, "r2")] [] [(1002 / 100, ())] (.ok out) ∧
      ∃ f ∈ out, f.rgb = (1003 / 100, "r2") ∧ f.groundTruth = none ∧ |f.rgb.1 - 1002 / 100| < 5 / 100 := by
  have hrun : ParsesTo (G := Unit) [(10, "r1"), (1003 / 100, "r2")] [] [(1002 / 100, ())]
      ((Outcome.ok [{ rgb := (10, "r1"), depth := none, groundTruth := none },
        { rgb := (1003 / 100, "r2"), depth := none, groundTruth := none }]).map fun frames =>
          assignGroundTruth frames (parseGroundTruth [((1002 / 100 : ℚ), ())])) := by
    have e1 : parseFile [(10, "r1"), (1003 / 100, "r2")] = [(10, "r1"), (1003 / 100, "r2")] := by decide +kernel
    have e2 : parseFile [] = [] := rfl
    have hc : candidates 0 (15 / 100) (parseFile [(10, "r1"), (1003 / 100, "r2")]) (parseFile []) = [] := by
      rw [e1, e2]; rfl
    refine .run (order := []) ?_ ?_
    · rw [hc]; exact .sorted (strictWeak_score _) (List.Perm.refl _) List.Pairwise.nil
    · rw [e1]
      refine .sorted ?_ (List.Perm.refl _) ?_
      · rw [strictWeak_before]
        · rintro f hf g hg ⟨-, x, y, hx, -⟩
          simp [associateAll, withoutDepth] at hf
          rcases hf with rfl | rfl <;> cases hx
        · intro f hf g hg _
          simp [associateAll, withoutDepth] at hf hg
          rcases hf with rfl | rfl <;> rcases hg with rfl | rfl <;> rfl
      · simp only [List.pairwise_cons, List.mem_cons, List.not_mem_nil, or_false, forall_eq, before]
        norm_num
  have hassign : assignGroundTruth [({ rgb := (10, "r1"), depth := none, groundTruth := none } : Frame Unit),
      { rgb := (1003 / 100, "r2"), depth := none, groundTruth := none }] (parseGroundTruth [((1002 / 100 : ℚ), ())]) =
      [{ rgb := (10, "r1"), depth := none, groundTruth := some (1002 / 100, ()) },
        { rgb := (1003 / 100, "r2"), depth := none, groundTruth := none }] := by
    have a : |(10 : ℚ) - 1002 / 100| < 5 / 100 := by norm_num [abs_lt]
    have e : parseGroundTruth [((1002 / 100 : ℚ), ())] = [(1002 / 100, ())] := rfl
    have c1 : closestTo (10 : ℚ) [((1002 / 100 : ℚ), ())] none false = some (|10 - 1002 / 100|, 1002 / 100, ()) := by
      simp only [closestTo, if_pos a, keepBest]
    have c2 : erase (1002 / 100) [((1002 / 100 : ℚ), ())] = [] := by simp [erase]
    rw [e, assignGroundTruth, c1]
    simp only [c2]
    rfl
  refine ⟨_, hrun, ?_⟩
  simp only [hassign]
  exact ⟨_, List.mem_cons_of_mem _ List.mem_cons_self, rfl, rfl, by norm_num [abs_lt]⟩

/-! ## C95, C96: choice of the frames -/

theorem mem_treatedFrames (jump : ℕ) : ∀ (n frameIndex k i : ℕ), i ∈ treatedFrames jump frameIndex k n ↔
    k ≤ i ∧ i < k + n ∧ (jump = 0 ∨ (frameIndex + (i - k)) % jump = 0)
  | 0, frameIndex, k, i => by simp [treatedFrames]; omega
  | n + 1, frameIndex, k, i => by
    have ih := mem_treatedFrames jump n (frameIndex + 1) (k + 1) i
    have hshift : k + 1 ≤ i → frameIndex + 1 + (i - (k + 1)) = frameIndex + (i - k) := by omega
    unfold treatedFrames
    split_ifs with h
    · rw [ih]
      constructor
      · rintro ⟨h1, h2, h3⟩
        rw [hshift h1] at h3
        exact ⟨by omega, by omega, h3⟩
      · rintro ⟨h1, h2, h3⟩
        have hk : k + 1 ≤ i := by
          rcases Nat.lt_or_ge k i with hk | hk
          · exact hk
          · obtain rfl : i = k := by omega
            rw [Nat.sub_self, Nat.add_zero] at h3
            omega
        rw [hshift hk]
        exact ⟨hk, by omega, h3⟩
    · rw [List.mem_cons, ih]
      constructor
      · rintro (rfl | ⟨h1, h2, h3⟩)
        · refine ⟨le_refl _, by omega, ?_⟩
          rw [Nat.sub_self, Nat.add_zero]
          omega
        · rw [hshift h1] at h3
          exact ⟨by omega, by omega, h3⟩
      · rintro ⟨h1, h2, h3⟩
        rcases Nat.lt_or_ge k i with hk | hk
        · right
          rw [hshift hk]
          exact ⟨hk, by omega, h3⟩
        · left; omega

/-- C96: without a start index, the frames given to the tracker are the multiples of the jump; all of them
without a jump. -/
theorem C96_every_jth (jump n i : ℕ) :
    i ∈ treatedFrames jump 0 0 n ↔ i < n ∧ (jump = 0 ∨ jump ∣ i) := by
  rw [mem_treatedFrames, Nat.dvd_iff_mod_eq_zero]
  simp

theorem sorted_treatedFrames (jump : ℕ) : ∀ n frameIndex k, (treatedFrames jump frameIndex k n).Pairwise (· < ·)
  | 0, _, _ => List.Pairwise.nil
  | n + 1, frameIndex, k => by
    unfold treatedFrames
    split_ifs
    · exact sorted_treatedFrames jump n _ _
    · refine List.pairwise_cons.2 ⟨fun i hi => ?_, sorted_treatedFrames jump n _ _⟩
      exact ((mem_treatedFrames jump n _ _ i).1 hi).1

/-- C96: the frames are given in order, each once. -/
theorem C96_in_order (jump start n : ℕ) : (treatedFrames jump start 0 n).Pairwise (· < ·) :=
  sorted_treatedFrames jump n start 0

example : treatedFrames 3 0 0 10 = [0, 3, 6, 9] := by decide

/-- C95 is false: without a jump, whatever the start index, all frames are treated, from the first. -/
theorem C95_start_index_false (start n : ℕ) : treatedFrames 0 start 0 n = treatedFrames 0 0 0 n := by
  have : ∀ n a b k, treatedFrames 0 a k n = treatedFrames 0 b k n := by
    intro n
    induction n with
    | zero => intros; rfl
    | succ n ih =>
      intro a b k
      simp only [treatedFrames, lt_irrefl, false_and, if_false]
      rw [ih (a + 1) (b + 1)]
  exact this n start 0 0

/-- C95 (partial: what the index does): with a jump, the index only shifts which frames are kept. -/
theorem C95_shift_partial {jump : ℕ} (hj : 0 < jump) (start n i : ℕ) :
    i ∈ treatedFrames jump start 0 n ↔ i < n ∧ (start + i) % jump = 0 := by
  rw [mem_treatedFrames]
  simp
  omega

example : treatedFrames 3 100 0 10 = [2, 5, 8] := by decide

end RgbdSlam.Tum
