import Verif.Props.Tum

/-! # C226: the lists of a synchronised camera

C51 and C93 hold for any lists, and the association of some of them is undefined.  Here is when it is not, and then it is the expected one. -/

namespace RgbdSlam.Tum

open Spec

variable {G : Type}

/-- Two images of a frame are at most `δ` apart, with more than twice that between frames. -/
structure Spec.Paired (δ : ℚ) (pairs : List ((ℚ × String) × (ℚ × String))) : Prop where
  close : ∀ p ∈ pairs, |p.1.1 - p.2.1| ≤ δ
  apart : pairs.Pairwise fun p q => p.1.1 + 2 * δ < q.1.1

/-- The lists of a camera whose two images of a frame are at most `δ` apart, with more than twice that between frames.  The lines of the files are in any order. -/
structure Spec.Synchronised (δ : ℚ) (pairs : List ((ℚ × String) × (ℚ × String))) (rgbLines depthLines : List (ℚ × String)) : Prop where
  rgb : rgbLines.Perm (pairs.map (·.1))
  depth : depthLines.Perm (pairs.map (·.2))
  valid : ∀ p ∈ pairs, p.1.2 ≠ "" ∧ 0 < p.1.1 ∧ p.2.2 ≠ "" ∧ 0 < p.2.1
  paired : Paired δ pairs

/-- When the times differ every valid line is an image. -/
theorem mem_parse {lines : List (ℚ × String)} (hv : ∀ e ∈ lines, e.2 ≠ "" ∧ 0 < e.1) (hd : (lines.map (·.1)).Nodup) (e : ℚ × String) :
    e ∈ parseFile lines ↔ e ∈ lines := by
  rw [(C51_parse_images lines).2 e]
  constructor
  · rintro ⟨pre, post, rfl, -⟩
    simp
  · intro he
    obtain ⟨pre, post, rfl⟩ := List.append_of_mem he
    refine ⟨pre, post, rfl, hv e he, fun x hx _ heq => ?_⟩
    rw [List.map_append, List.nodup_append] at hd
    exact hd.2.2 x.1 (List.mem_map_of_mem hx) e.1 (by simp) heq

theorem synchronised_eq {δ : ℚ} {pairs : List ((ℚ × String) × (ℚ × String))} (h : Paired δ pairs) {p q : (ℚ × String) × (ℚ × String)} (hp : p ∈ pairs) (hq : q ∈ pairs)
    (hle : |p.1.1 - q.1.1| ≤ 2 * δ) : p = q := by
  rcases pairwise_eq_or (fun a b hab => by rw [abs_sub_comm]; exact hab) (h.apart.imp fun {a b} hab => show 2 * δ < |a.1.1 - b.1.1| by
    rw [abs_sub_comm]
    exact lt_of_lt_of_le (by linarith) (le_abs_self _)) p hp q hq with h' | h'
  · exact h'
  · exact absurd h' (not_lt.2 hle)

/-- Before the final sort, every frame is a pair. -/
theorem unsorted_pair {δ : ℚ} (hδ : δ < 15 / 100) {pairs : List ((ℚ × String) × (ℚ × String))} {rgbLines depthLines : List (ℚ × String)}
    (h : Paired δ pairs) (hmr : ∀ e, e ∈ parseFile rgbLines ↔ ∃ p ∈ pairs, p.1 = e) (hmd : ∀ e, e ∈ parseFile depthLines ↔ ∃ p ∈ pairs, p.2 = e)
    {order : List Candidate}
    (ho : SortsTo (fun a b : Candidate => a.score < b.score) (candidates 0 (15 / 100) (parseFile rgbLines) (parseFile depthLines)) (.ok order)) :
    (∀ f ∈ unsorted (G := G) order (parseFile rgbLines) (parseFile depthLines), ∃ p ∈ pairs, f.rgb = p.1 ∧ f.depth = some p.2) ∧
    ∀ p ∈ pairs, ∃ f ∈ unsorted (G := G) order (parseFile rgbLines) (parseFile depthLines), f.rgb = p.1 ∧ f.depth = some p.2 := by
  have tri : ∀ {a b c x : ℚ}, |a - b| ≤ x → |c - b| ≤ x → |a - c| ≤ 2 * x := by
    intro a b c x h1 h2
    rw [abs_le] at *
    constructor <;> linarith [h1.1, h1.2, h2.1, h2.2]
  have hr := (C51_parse_images rgbLines).1
  have hd := (C51_parse_images depthLines).1
  obtain ⟨a1, -, a3, a4⟩ := unsorted_spec (G := G) hr hd ho
  have hkey := unsorted_key hr a1
  have hall : ∀ p ∈ pairs, ∃ f ∈ unsorted (G := G) order (parseFile rgbLines) (parseFile depthLines), f.rgb = p.1 ∧ f.depth = some p.2 := by
    intro p hp
    have hc := h.close p hp
    obtain ⟨f, hf, d', h1, h2, h3⟩ := a4 p.1 ((hmr _).2 ⟨p, hp, rfl⟩) p.2 ((hmd _).2 ⟨p, hp, rfl⟩) (lt_of_le_of_lt hc hδ)
    have h3 := h3.trans hc
    rcases h2 with h2 | rfl
    · obtain ⟨q, hq, rfl⟩ := (hmd d').1 (a3 f hf d' h1).1
      rw [h2] at h3
      obtain rfl := synchronised_eq h hp hq (tri h3 (h.close q hq))
      exact ⟨f, hf, h2, h1⟩
    · obtain ⟨q, hq, hq'⟩ := (hmr f.rgb).1 (a1.mem_iff.1 (List.mem_map_of_mem hf))
      rw [← hq'] at h3
      obtain rfl := synchronised_eq h hp hq (tri hc h3)
      exact ⟨f, hf, hq'.symm, h1⟩
  refine ⟨fun f hf => ?_, hall⟩
  obtain ⟨p, hp, hp'⟩ := (hmr f.rgb).1 (a1.mem_iff.1 (List.mem_map_of_mem hf))
  obtain ⟨g, hg, g1, g2⟩ := hall p hp
  have : f = g := hkey f hf g hg (by rw [g1, hp'])
  subst this
  exact ⟨p, hp, g1, g2⟩

theorem synchronised_mem {δ : ℚ} {pairs : List ((ℚ × String) × (ℚ × String))} {rgbLines depthLines : List (ℚ × String)}
    (h : Synchronised δ pairs rgbLines depthLines) :
    (∀ e, e ∈ parseFile rgbLines ↔ ∃ p ∈ pairs, p.1 = e) ∧ ∀ e, e ∈ parseFile depthLines ↔ ∃ p ∈ pairs, p.2 = e := by
  have tri : ∀ {a b c x : ℚ}, |a - b| ≤ x → |c - b| ≤ x → |a - c| ≤ 2 * x := by
    intro a b c x h1 h2
    rw [abs_le] at *
    constructor <;> linarith [h1.1, h1.2, h2.1, h2.2]
  have hmr : ∀ e, e ∈ parseFile rgbLines ↔ ∃ p ∈ pairs, p.1 = e := by
    intro e
    refine (mem_parse (fun e he => ?_) ?_ e).trans (by rw [h.rgb.mem_iff, List.mem_map])
    · obtain ⟨p, hp, rfl⟩ := List.mem_map.1 (h.rgb.mem_iff.1 he)
      exact ⟨(h.valid p hp).1, (h.valid p hp).2.1⟩
    · rw [(h.rgb.map _).nodup_iff, List.map_map]
      refine List.Nodup.map_on ?_ (h.paired.apart.imp_of_mem fun {a b} ha _ hab => ?_)
      · intro a ha b hb hab
        have h0 := le_trans (abs_nonneg _) (h.paired.close a ha)
        refine synchronised_eq h.paired ha hb ?_
        rw [show a.1.1 = b.1.1 from hab, sub_self, abs_zero]
        linarith
      · rintro rfl
        have h0 := le_trans (abs_nonneg _) (h.paired.close a ha)
        linarith
  have hmd : ∀ e, e ∈ parseFile depthLines ↔ ∃ p ∈ pairs, p.2 = e := by
    intro e
    refine (mem_parse (fun e he => ?_) ?_ e).trans (by rw [h.depth.mem_iff, List.mem_map])
    · obtain ⟨p, hp, rfl⟩ := List.mem_map.1 (h.depth.mem_iff.1 he)
      exact ⟨(h.valid p hp).2.2.1, (h.valid p hp).2.2.2⟩
    · rw [(h.depth.map _).nodup_iff, List.map_map]
      refine List.Nodup.map_on ?_ (h.paired.apart.imp_of_mem fun {a b} ha _ hab => ?_)
      · intro a ha b hb hab
        refine synchronised_eq h.paired ha hb (tri (h.paired.close a ha) ?_)
        rw [show a.2.1 = b.2.1 from hab]
        exact h.paired.close b hb
      · rintro rfl
        have h0 := le_trans (abs_nonneg _) (h.paired.close a ha)
        linarith
  exact ⟨hmr, hmd⟩

/-- C226 for lists of which only the images are known. -/
theorem associates_paired {δ : ℚ} (hδ : δ < 15 / 100) {pairs : List ((ℚ × String) × (ℚ × String))} (rgbLines depthLines : List (ℚ × String))
    (truthLines : List (ℚ × G)) (h : Paired δ pairs) (hmr : ∀ e, e ∈ parseFile rgbLines ↔ ∃ p ∈ pairs, p.1 = e)
    (hmd : ∀ e, e ∈ parseFile depthLines ↔ ∃ p ∈ pairs, p.2 = e) :
    ∀ o, ParsesTo rgbLines depthLines truthLines o → ∃ out, o = .ok out ∧
      out.map (fun f => (f.rgb, f.depth)) = pairs.map fun p => (p.1, some p.2) := by
  intro o ho
  have hok : ∃ out, o = .ok out := by
    rcases (C51_total rgbLines depthLines truthLines).2 o ho with rfl | hok
    · exfalso
      generalize hu : (Outcome.ub : Outcome (List (Frame G))) = u at ho
      cases ho with
      | run h1 h2 =>
        rename_i order sorted
        cases sorted with
        | ub =>
          obtain ⟨f, hf, g, hg, hlt, x, y, hx, hy, hxy⟩ := (C51_undefined_iff_crossed rgbLines depthLines h1).1 h2
          obtain ⟨p, hp, p1, p2⟩ := (unsorted_pair hδ h hmr hmd h1).1 f hf
          obtain ⟨q, hq, q1, q2⟩ := (unsorted_pair hδ h hmr hmd h1).1 g hg
          rw [p2] at hx
          rw [q2] at hy
          obtain rfl := Option.some.inj hx
          obtain rfl := Option.some.inj hy
          rw [p1, q1] at hlt
          have hp' := abs_le.1 (h.close p hp)
          have hq' := abs_le.1 (h.close q hq)
          have := synchronised_eq h hp hq (by rw [abs_le]; constructor <;> linarith [hp'.1, hp'.2, hq'.1, hq'.2])
          subst this
          exact lt_irrefl _ hlt
        | _ => cases hu
    · exact hok
  obtain ⟨out, rfl⟩ := hok
  refine ⟨out, rfl, ?_⟩
  have hass := C51_association_partial rgbLines depthLines truthLines ho
  have ht := (C51_parse_truth truthLines).1
  obtain ⟨order, sorted, h1, h2, hout⟩ := result_spec ho
  obtain ⟨u1, u2⟩ := unsorted_pair (G := G) hδ h hmr hmd h1
  have hmap := (assignGroundTruth_spec sorted _ ht).1
  rw [← hout] at hmap
  have hperm : (out.map fun f => (f.rgb, f.depth)).Perm (pairs.map fun p => (p.1, some p.2)) := by
    have e1 : (out.map fun f => (f.rgb, f.depth)).Pairwise fun a b => a.1.1 < b.1.1 := List.pairwise_map.2 hass.inOrder
    have e2 : (pairs.map fun p => (p.1, some p.2)).Pairwise fun a b => a.1.1 < b.1.1 := List.pairwise_map.2
      (h.apart.imp_of_mem fun {a b} ha _ hab => by
        have h0 := le_trans (abs_nonneg _) (h.close a ha)
        dsimp only
        linarith)
    refine (List.perm_ext_iff_of_nodup (e1.imp fun {a b} hab => ?_) (e2.imp fun {a b} hab => ?_)).2 fun x => ?_
    · rintro rfl; exact lt_irrefl _ hab
    · rintro rfl; exact lt_irrefl _ hab
    · rw [hmap]
      cases h2 with
      | sorted _ hp _ =>
        constructor
        · intro hx
          obtain ⟨f, hf, rfl⟩ := List.mem_map.1 hx
          obtain ⟨p, hp', p1, p2⟩ := u1 f (hp.mem_iff.1 hf)
          exact List.mem_map.2 ⟨p, hp', by rw [p1, p2]⟩
        · intro hx
          obtain ⟨p, hp', rfl⟩ := List.mem_map.1 hx
          obtain ⟨f, hf, p1, p2⟩ := u2 p hp'
          exact List.mem_map.2 ⟨f, hp.mem_iff.2 hf, by rw [p1, p2]⟩
  refine hperm.eq_of_pairwise (le := fun a b => a.1.1 < b.1.1) (fun a b _ _ h1 h2 => absurd h1 (lt_asymm h2)) (List.pairwise_map.2 hass.inOrder) (List.pairwise_map.2
      (h.apart.imp_of_mem fun {a b} ha _ hab => by
        have h0 := le_trans (abs_nonneg _) (h.close a ha)
        dsimp only
        linarith))

/-- C226.  When each depth image is at most `δ` from its colour image, less than the tolerance, and the colour images are more than twice `δ` apart, reading the two lists is
well defined whatever the order of their lines, and gives every colour image with its own depth image, in the order of time. -/
theorem C226_synchronised (δ : ℚ) (hδ : δ < 15 / 100) (pairs : List ((ℚ × String) × (ℚ × String))) (rgbLines depthLines : List (ℚ × String))
    (truthLines : List (ℚ × G)) (h : Synchronised δ pairs rgbLines depthLines) :
    (∃ o, ParsesTo rgbLines depthLines truthLines o) ∧
    ∀ o, ParsesTo rgbLines depthLines truthLines o → ∃ out, o = .ok out ∧
      out.map (fun f => (f.rgb, f.depth)) = pairs.map fun p => (p.1, some p.2) := by
  exact ⟨(C51_total _ _ _).1, associates_paired hδ rgbLines depthLines truthLines h.paired (synchronised_mem h).1 (synchronised_mem h).2⟩

/-- The hypotheses are met by a camera at 20 frames per second, of any number of frames, whose depth images come 2 hundredths of a second late; its lists are read backwards. -/
example (n : ℕ) : Synchronised (2 / 100) ((List.range n).map fun (i : ℕ) => (((1 + i / 20 : ℚ), "c"), ((1 + i / 20 + 2 / 100 : ℚ), "d")))
    ((List.range n).map fun (i : ℕ) => ((1 + i / 20 : ℚ), "c")).reverse ((List.range n).map fun (i : ℕ) => ((1 + i / 20 + 2 / 100 : ℚ), "d")) where
  rgb := by rw [List.map_map]; exact List.reverse_perm _
  depth := by rw [List.map_map]; exact List.Perm.refl _
  valid := by
    intro p hp
    obtain ⟨i, -, rfl⟩ := List.mem_map.1 hp
    have : (0 : ℚ) ≤ i := Nat.cast_nonneg i
    exact ⟨by simp, by dsimp only; linarith, by simp, by dsimp only; linarith⟩
  paired := by
    refine ⟨?_, ?_⟩
    · intro p hp
      obtain ⟨i, -, rfl⟩ := List.mem_map.1 hp
      rw [abs_le]
      constructor <;> dsimp only <;> linarith
    · rw [List.pairwise_map]
      refine List.pairwise_lt_range.imp fun {a b} hab => ?_
      have : (a : ℚ) + 1 ≤ b := by exact_mod_cast hab
      dsimp only
      linarith

end RgbdSlam.Tum
