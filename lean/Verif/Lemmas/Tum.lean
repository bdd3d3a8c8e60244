import Verif.Spec.Tum
import Mathlib.Tactic.Linarith
import Mathlib.Tactic.NormNum
import Mathlib.Data.List.Nodup
import Mathlib.Data.List.Induction
import Mathlib.Data.List.Perm.Basic

/-
Lemmas about the reader of TUM datasets.
-/
namespace RgbdSlam.Tum

variable {V G : Type}

/-! ## Maps -/

/-- The order of a `std::map`. -/
def SortedMap (m : TimeMap V) : Prop := m.Pairwise fun a b => a.1 < b.1

theorem mem_tryEmplace {time : ℚ} {value : V} : ∀ {m : TimeMap V}, SortedMap m → ∀ {e : ℚ × V},
    e ∈ tryEmplace time value m ↔ e ∈ m ∨ (e = (time, value) ∧ ∀ x ∈ m, x.1 ≠ time)
  | [], _, e => by simp [tryEmplace]
  | (t, v) :: m, h, e => by
    have hm : SortedMap m := (List.pairwise_cons.1 h).2
    have ht := (List.pairwise_cons.1 h).1
    unfold tryEmplace
    split_ifs with h1 h2
    · constructor
      · intro he
        rcases List.mem_cons.1 he with rfl | he
        · right
          refine ⟨rfl, fun x hx => ?_⟩
          rcases List.mem_cons.1 hx with rfl | hx
          · exact ne_of_gt h1
          · exact ne_of_gt (lt_trans h1 (ht x hx))
        · exact Or.inl he
      · rintro (he | ⟨rfl, -⟩)
        · exact List.mem_cons_of_mem _ he
        · exact List.mem_cons_self
    · rw [List.mem_cons, mem_tryEmplace hm, List.mem_cons]
      constructor
      · rintro (rfl | he | ⟨rfl, he⟩)
        · exact Or.inl (Or.inl rfl)
        · exact Or.inl (Or.inr he)
        · refine Or.inr ⟨rfl, fun x hx => ?_⟩
          rcases List.mem_cons.1 hx with rfl | hx
          · exact ne_of_lt h2
          · exact he x hx
      · rintro ((rfl | he) | ⟨rfl, he⟩)
        · exact Or.inl rfl
        · exact Or.inr (Or.inl he)
        · exact Or.inr (Or.inr ⟨rfl, fun x hx => he x (List.mem_cons_of_mem _ hx)⟩)
    · have heq : t = time := le_antisymm (not_lt.1 h1) (not_lt.1 h2)
      constructor
      · exact Or.inl
      · rintro (he | ⟨-, he⟩)
        · exact he
        · exact absurd heq (he (t, v) List.mem_cons_self)

theorem sorted_tryEmplace {time : ℚ} {value : V} : ∀ {m : TimeMap V}, SortedMap m →
    SortedMap (tryEmplace time value m)
  | [], _ => by simp [tryEmplace, SortedMap]
  | (t, v) :: m, h => by
    have hm : SortedMap m := (List.pairwise_cons.1 h).2
    have ht := (List.pairwise_cons.1 h).1
    unfold tryEmplace
    split_ifs with h1 h2
    · refine List.pairwise_cons.2 ⟨fun x hx => ?_, h⟩
      rcases List.mem_cons.1 hx with rfl | hx
      · exact h1
      · exact lt_trans h1 (ht x hx)
    · refine List.pairwise_cons.2 ⟨fun x hx => ?_, sorted_tryEmplace hm⟩
      rcases (mem_tryEmplace hm).1 hx with hx | ⟨rfl, -⟩
      · exact ht x hx
      · exact h2
    · exact h

theorem parse_spec {valid : ℚ × V → Prop} [DecidablePred valid] : ∀ (lines : List (ℚ × V)),
    SortedMap (lines.foldl (fun m l => if valid l then tryEmplace l.1 l.2 m else m) []) ∧
    ∀ e, e ∈ lines.foldl (fun m l => if valid l then tryEmplace l.1 l.2 m else m) [] ↔
      Spec.FirstAt valid lines e := by
  intro lines
  induction lines using List.reverseRecOn with
  | nil => exact ⟨List.Pairwise.nil, fun e => by simp [Spec.FirstAt]⟩
  | append_singleton lines l ih =>
    obtain ⟨hs, hm⟩ := ih
    simp only [List.foldl_append, List.foldl_cons, List.foldl_nil]
    have lift : ∀ e, Spec.FirstAt valid lines e → Spec.FirstAt valid (lines ++ [l]) e := by
      rintro e ⟨pre, post, rfl, h1, h2⟩
      exact ⟨pre, post ++ [l], by simp, h1, h2⟩
    have back : ∀ e, Spec.FirstAt valid (lines ++ [l]) e → Spec.FirstAt valid lines e ∨
        (e = l ∧ valid l ∧ ∀ x ∈ lines, valid x → x.1 ≠ l.1) := by
      rintro e ⟨pre, post, h0, h1, h2⟩
      rcases List.eq_nil_or_concat post with rfl | ⟨post, z, rfl⟩
      · right
        obtain ⟨rfl, h⟩ := List.append_inj' h0 rfl
        obtain rfl : l = e := by simpa using h
        exact ⟨rfl, h1, h2⟩
      · left
        have h0' : lines ++ [l] = (pre ++ e :: post) ++ [z] := by rw [h0]; simp
        obtain ⟨rfl, -⟩ := List.append_inj' h0' rfl
        exact ⟨pre, post, rfl, h1, h2⟩
    -- the times of the map are those of the valid lines
    have times : ∀ t, (∀ x ∈ lines.foldl (fun m l => if valid l then tryEmplace l.1 l.2 m else m) [], x.1 ≠ t) ↔
        ∀ x ∈ lines, valid x → x.1 ≠ t := by
      intro t
      constructor
      · intro h x hx hv heq
        have : ∃ y, Spec.FirstAt valid lines y ∧ y.1 = x.1 := by
          clear hs hm lift back h heq
          induction lines with
          | nil => simp at hx
          | cons a lines ih =>
            by_cases hax : valid a ∧ a.1 = x.1
            · exact ⟨a, ⟨[], lines, rfl, hax.1, by simp⟩, hax.2⟩
            · rcases List.mem_cons.1 hx with rfl | hx
              · exact absurd ⟨hv, rfl⟩ hax
              · obtain ⟨y, ⟨pre, post, rfl, h1, h2⟩, h3⟩ := ih hx
                refine ⟨y, ⟨a :: pre, post, rfl, h1, fun z hz hvz => ?_⟩, h3⟩
                rcases List.mem_cons.1 hz with rfl | hz
                · intro h; exact hax ⟨hvz, by rw [h, h3]⟩
                · exact h2 z hz hvz
        obtain ⟨y, hy, hyx⟩ := this
        exact h y ((hm y).2 hy) (by rw [hyx, heq])
      · intro h x hx
        obtain ⟨pre, post, rfl, h1, -⟩ := (hm x).1 hx
        exact h x (by simp) h1
    by_cases hv : valid l
    · rw [if_pos hv]
      refine ⟨sorted_tryEmplace hs, fun e => ?_⟩
      rw [mem_tryEmplace hs, hm, times]
      constructor
      · rintro (h | ⟨rfl, h⟩)
        · exact lift e h
        · exact ⟨lines, [], rfl, hv, h⟩
      · intro h
        rcases back e h with h | ⟨rfl, -, h⟩
        · exact Or.inl h
        · exact Or.inr ⟨rfl, h⟩
    · rw [if_neg hv]
      refine ⟨hs, fun e => ?_⟩
      rw [hm]
      exact ⟨lift e, fun h => (back e h).resolve_right fun h => hv h.2.1⟩

theorem SortedMap.nodup {m : TimeMap V} (h : SortedMap m) : m.Nodup :=
  h.imp fun {a b} hab e => by rw [e] at hab; exact lt_irrefl _ hab

theorem SortedMap.key_inj : ∀ {m : TimeMap V}, SortedMap m → ∀ {a b}, a ∈ m → b ∈ m → a.1 = b.1 → a = b
  | [], _, _, _, ha, _, _ => by simp at ha
  | x :: m, h, a, b, ha, hb, heq => by
    have hx := (List.pairwise_cons.1 h).1
    rcases List.mem_cons.1 ha with ha | ha <;> rcases List.mem_cons.1 hb with hb | hb
    · rw [ha, hb]
    · rw [ha] at heq; exact absurd heq (ne_of_lt (hx b hb))
    · rw [hb] at heq; exact absurd heq (ne_of_gt (hx a ha))
    · exact SortedMap.key_inj (List.pairwise_cons.1 h).2 ha hb heq

theorem SortedMap.erase {m : TimeMap V} (h : SortedMap m) (t : ℚ) : SortedMap (erase t m) :=
  List.Pairwise.filter _ h

theorem find?_some {m : TimeMap V} {t : ℚ} {v : V} (h : find? t m = some v) : (t, v) ∈ m := by
  unfold find? at h
  obtain ⟨e, he, rfl⟩ := Option.map_eq_some_iff.1 h
  have h1 := List.find?_some he
  have h2 := List.mem_of_find?_eq_some he
  simp only [decide_eq_true_eq] at h1
  rw [← h1]
  exact h2

theorem find?_none {m : TimeMap V} {t : ℚ} (h : find? t m = none) : ∀ e ∈ m, e.1 ≠ t := by
  unfold find? at h
  rw [Option.map_eq_none_iff, List.find?_eq_none] at h
  intro e he
  simpa using h e he

theorem mem_erase {m : TimeMap V} {t : ℚ} {e : ℚ × V} : e ∈ erase t m ↔ e ∈ m ∧ e.1 ≠ t := by
  simp [Tum.erase]

theorem erase_perm {m : TimeMap V} (hs : SortedMap m) {e : ℚ × V} (he : e ∈ m) : (e :: erase e.1 m).Perm m := by
  rw [List.perm_ext_iff_of_nodup]
  · intro x
    rw [List.mem_cons, mem_erase]
    constructor
    · rintro (rfl | h)
      · exact he
      · exact h.1
    · intro hx
      by_cases hxe : x.1 = e.1
      · exact Or.inl (hs.key_inj hx he hxe)
      · exact Or.inr ⟨hx, hxe⟩
  · refine List.nodup_cons.2 ⟨fun h => (mem_erase.1 h).2 rfl, (hs.erase _).nodup⟩
  · exact hs.nodup

/-! ## Candidates -/

/-- Leaving the loop early loses no candidate, because the map is sorted. -/
theorem candidatesOf_eq {offset maxDifference rgb : ℚ} : ∀ {m : TimeMap V} {ready : Bool}, SortedMap m →
    (ready = true → ∃ t, |rgb - (t + offset)| < maxDifference ∧ ∀ e ∈ m, t < e.1) →
    candidatesOf offset maxDifference rgb m ready =
      (m.filter fun e => |rgb - (e.1 + offset)| < maxDifference).map fun e =>
        { score := |rgb - (e.1 + offset)|, rgb := rgb, depth := e.1 }
  | [], _, _, _ => rfl
  | (d, v) :: m, ready, hs, hr => by
    have hm : SortedMap m := (List.pairwise_cons.1 hs).2
    have hd := (List.pairwise_cons.1 hs).1
    unfold candidatesOf
    by_cases h : |rgb - (d + offset)| < maxDifference
    · simp only [if_pos h]
      rw [candidatesOf_eq hm fun _ => ⟨d, h, hd⟩, List.filter_cons_of_pos (by simpa using h)]
      rfl
    · simp only [if_neg h]
      rw [List.filter_cons_of_neg (by simpa using h)]
      cases ready with
      | false => exact candidatesOf_eq hm (by simp)
      | true =>
        obtain ⟨t, ht, hlt⟩ := hr rfl
        have htd : t < d := hlt (d, v) List.mem_cons_self
        rw [if_pos rfl]
        have : m.filter (fun e => decide (|rgb - (e.1 + offset)| < maxDifference)) = [] := by
          rw [List.filter_eq_nil_iff]
          intro e he
          have hde : d < e.1 := hd e he
          rw [abs_lt] at ht
          rw [not_lt, le_abs] at h
          simp only [decide_eq_true_eq, not_lt, le_abs]
          right
          rcases h with h | h
          · linarith
          · linarith
        rw [this]
        rfl

theorem mem_candidates {offset maxDifference : ℚ} {rgb depth : TimeMap V} (hd : SortedMap depth) {c : Candidate} :
    c ∈ candidates offset maxDifference rgb depth ↔
      ∃ r ∈ rgb, ∃ d ∈ depth, |r.1 - (d.1 + offset)| < maxDifference ∧
        c = { score := |r.1 - (d.1 + offset)|, rgb := r.1, depth := d.1 } := by
  simp only [candidates, List.mem_flatMap]
  constructor
  · rintro ⟨r, hr, hc⟩
    rw [candidatesOf_eq hd (by simp)] at hc
    obtain ⟨d, hd', rfl⟩ := List.mem_map.1 hc
    obtain ⟨h1, h2⟩ := List.mem_filter.1 hd'
    exact ⟨r, hr, d, h1, by simpa using h2, rfl⟩
  · rintro ⟨r, hr, d, hd', h, rfl⟩
    refine ⟨r, hr, ?_⟩
    rw [candidatesOf_eq hd (by simp)]
    exact List.mem_map.2 ⟨d, List.mem_filter.2 ⟨hd', by simpa using h⟩, rfl⟩

/-! ## Association -/

/-- What the association loop does. -/
theorem associateAll_spec : ∀ (order : List Candidate) (rgb depth : TimeMap String),
    SortedMap rgb → SortedMap depth → order.Pairwise (fun a b => a.score ≤ b.score) →
    ((associateAll (G := G) order rgb depth).1.map (·.rgb) ++ (associateAll (G := G) order rgb depth).2.1).Perm rgb ∧
    ((associateAll (G := G) order rgb depth).1.filterMap (·.depth) ++
      (associateAll (G := G) order rgb depth).2.2).Perm depth ∧
    (∀ f ∈ (associateAll (G := G) order rgb depth).1, ∃ c ∈ order, ∃ d, f.depth = some d ∧ f.rgb.1 = c.rgb ∧
      d.1 = c.depth) ∧
    (∀ c ∈ order, ∀ r ∈ rgb, ∀ d ∈ depth, r.1 = c.rgb → d.1 = c.depth →
      ∃ f ∈ (associateAll (G := G) order rgb depth).1, ∃ d', f.depth = some d' ∧ (f.rgb = r ∨ d' = d) ∧
        ∃ c' ∈ order, f.rgb.1 = c'.rgb ∧ d'.1 = c'.depth ∧ c'.score ≤ c.score)
  | [], rgb, depth, _, _, _ => by simp [associateAll]
  | c :: cs, rgb, depth, hr, hd, ho => by
    have hcs := (List.pairwise_cons.1 ho).2
    have hle := (List.pairwise_cons.1 ho).1
    cases h1 : find? c.rgb rgb with
    | none =>
      have e : associateOne (G := G) c rgb depth = (none, rgb, depth) := by
        unfold associateOne; rw [h1]
      obtain ⟨a1, a2, a3, a4⟩ := associateAll_spec cs rgb depth hr hd hcs
      have e' : associateAll (G := G) (c :: cs) rgb depth = associateAll cs rgb depth := by
        simp [associateAll, e]
      rw [e']
      refine ⟨a1, a2, fun f hf => ?_, fun c' hc' r hr' d hd' e1 e2 => ?_⟩
      · obtain ⟨c', hc', h⟩ := a3 f hf
        exact ⟨c', List.mem_cons_of_mem _ hc', h⟩
      · rcases List.mem_cons.1 hc' with rfl | hc'
        · exact absurd e1 (find?_none h1 r hr')
        · obtain ⟨f, hf, d', hfd, hor, c'', hc'', h⟩ := a4 c' hc' r hr' d hd' e1 e2
          exact ⟨f, hf, d', hfd, hor, c'', List.mem_cons_of_mem _ hc'', h⟩
    | some rp =>
      cases h2 : find? c.depth depth with
      | none =>
        have e : associateOne (G := G) c rgb depth = (none, rgb, depth) := by
          unfold associateOne; rw [h1, h2]
        obtain ⟨a1, a2, a3, a4⟩ := associateAll_spec cs rgb depth hr hd hcs
        have e' : associateAll (G := G) (c :: cs) rgb depth = associateAll cs rgb depth := by
          simp [associateAll, e]
        rw [e']
        refine ⟨a1, a2, fun f hf => ?_, fun c' hc' r hr' d hd' e1 e2 => ?_⟩
        · obtain ⟨c', hc', h⟩ := a3 f hf
          exact ⟨c', List.mem_cons_of_mem _ hc', h⟩
        · rcases List.mem_cons.1 hc' with rfl | hc'
          · exact absurd e2 (find?_none h2 d hd')
          · obtain ⟨f, hf, d', hfd, hor, c'', hc'', h⟩ := a4 c' hc' r hr' d hd' e1 e2
            exact ⟨f, hf, d', hfd, hor, c'', List.mem_cons_of_mem _ hc'', h⟩
      | some dp =>
        have m1 := find?_some h1
        have m2 := find?_some h2
        have e : associateOne (G := G) c rgb depth =
            (some { rgb := (c.rgb, rp), depth := some (c.depth, dp), groundTruth := none },
              erase c.rgb rgb, erase c.depth depth) := by
          unfold associateOne; rw [h1, h2]
        obtain ⟨a1, a2, a3, a4⟩ := associateAll_spec cs (erase c.rgb rgb) (erase c.depth depth)
          (hr.erase _) (hd.erase _) hcs
        have e' : associateAll (G := G) (c :: cs) rgb depth =
            ({ rgb := (c.rgb, rp), depth := some (c.depth, dp), groundTruth := none } ::
              (associateAll cs (erase c.rgb rgb) (erase c.depth depth)).1,
              (associateAll (G := G) cs (erase c.rgb rgb) (erase c.depth depth)).2) := by
          simp [associateAll, e]
        rw [e']
        refine ⟨?_, ?_, fun f hf => ?_, fun c' hc' r hr' d hd' e1 e2 => ?_⟩
        · simp only [List.map_cons, List.cons_append]
          exact (List.Perm.cons _ a1).trans (erase_perm hr m1)
        · simp only [List.filterMap_cons, List.cons_append]
          exact (List.Perm.cons _ a2).trans (erase_perm hd m2)
        · rcases List.mem_cons.1 hf with rfl | hf
          · exact ⟨c, List.mem_cons_self, _, rfl, rfl, rfl⟩
          · obtain ⟨c', hc', h⟩ := a3 f hf
            exact ⟨c', List.mem_cons_of_mem _ hc', h⟩
        · by_cases er : r.1 = c.rgb
          · refine ⟨_, List.mem_cons_self, _, rfl, Or.inl (hr.key_inj m1 hr' er.symm), c, List.mem_cons_self, rfl, rfl,
              ?_⟩
            rcases List.mem_cons.1 hc' with rfl | hc'
            · exact le_refl _
            · exact hle c' hc'
          by_cases ed : d.1 = c.depth
          · refine ⟨_, List.mem_cons_self, _, rfl, Or.inr (hd.key_inj m2 hd' ed.symm), c, List.mem_cons_self, rfl, rfl,
              ?_⟩
            rcases List.mem_cons.1 hc' with rfl | hc'
            · exact le_refl _
            · exact hle c' hc'
          rcases List.mem_cons.1 hc' with rfl | hc'
          · exact absurd e1 er
          · obtain ⟨f, hf, d', hfd, hor, c'', hc'', h⟩ := a4 c' hc' r (mem_erase.2 ⟨hr', er⟩) d (mem_erase.2 ⟨hd', ed⟩) e1 e2
            exact ⟨f, List.mem_cons_of_mem _ hf, d', hfd, hor, c'', List.mem_cons_of_mem _ hc'', h⟩

/-! ## Sorting -/

theorem StrictWeakOn.subset {α : Type} {lt : α → α → Prop} {l l' : List α} (h : StrictWeakOn lt l)
    (hs : ∀ a ∈ l', a ∈ l) : StrictWeakOn lt l' where
  irrefl a ha := h.irrefl a (hs a ha)
  trans a ha b hb c hc := h.trans a (hs a ha) b (hs b hb) c (hs c hc)
  equivTrans a ha b hb c hc := h.equivTrans a (hs a ha) b (hs b hb) c (hs c hc)

theorem StrictWeakOn.neg_trans {α : Type} {lt : α → α → Prop} {l : List α} (h : StrictWeakOn lt l) {a b c : α}
    (ha : a ∈ l) (hb : b ∈ l) (hc : c ∈ l) (h1 : ¬ lt a b) (h2 : ¬ lt b c) : ¬ lt a c := by
  intro h3
  have h4 : ¬ lt b a := fun h' => h2 (h.trans b hb a ha c hc h' h3)
  have h5 : ¬ lt c b := fun h' => h1 (h.trans a ha c hc b hb h3 h')
  exact (h.equivTrans a ha b hb c hc h1 h4 h2 h5).1 h3

theorem exists_insert {α : Type} {lt : α → α → Prop} (a : α) : ∀ {l : List α}, StrictWeakOn lt (a :: l) →
    l.Pairwise (fun x y => ¬ lt y x) → ∃ l' : List α, l'.Perm (a :: l) ∧ l'.Pairwise fun x y => ¬ lt y x
  | [], _, _ => ⟨[a], List.Perm.refl _, by simp⟩
  | x :: l, hw, hp => by
    have hx := (List.pairwise_cons.1 hp).1
    by_cases h : lt x a
    · obtain ⟨l', h1, h2⟩ := exists_insert a (l := l) (hw.subset (by
        intro y hy
        rcases List.mem_cons.1 hy with rfl | hy
        · exact List.mem_cons_self
        · exact List.mem_cons_of_mem _ (List.mem_cons_of_mem _ hy))) (List.pairwise_cons.1 hp).2
      refine ⟨x :: l', (List.Perm.cons x h1).trans (List.Perm.swap _ _ _), List.pairwise_cons.2 ⟨fun y hy => ?_, h2⟩⟩
      rcases List.mem_cons.1 (h1.mem_iff.1 hy) with rfl | hy
      · intro h'
        exact hw.irrefl x (by simp) (hw.trans x (by simp) y (by simp) x (by simp) h h')
      · exact hx y hy
    · refine ⟨a :: x :: l, List.Perm.refl _, List.pairwise_cons.2 ⟨fun y hy => ?_, hp⟩⟩
      rcases List.mem_cons.1 hy with rfl | hy'
      · exact h
      · exact hw.neg_trans (List.mem_cons_of_mem _ hy) (by simp) (by simp) (hx y hy') h

theorem exists_sorted {α : Type} {lt : α → α → Prop} : ∀ {l : List α}, StrictWeakOn lt l →
    ∃ l' : List α, l'.Perm l ∧ l'.Pairwise fun x y => ¬ lt y x
  | [], _ => ⟨[], List.Perm.refl _, by simp⟩
  | a :: l, h => by
    obtain ⟨l', h1, h2⟩ := exists_sorted (l := l) (h.subset fun x hx => List.mem_cons_of_mem _ hx)
    obtain ⟨l'', h3, h4⟩ := exists_insert a (l := l') (h.subset fun x hx => by
      rcases List.mem_cons.1 hx with rfl | hx
      · exact List.mem_cons_self
      · exact List.mem_cons_of_mem _ (h1.mem_iff.1 hx)) h2
    exact ⟨l'', h3.trans (List.Perm.cons a h1), h4⟩

theorem exists_sortsTo {α : Type} (lt : α → α → Prop) (l : List α) : ∃ o, SortsTo lt l o := by
  by_cases h : StrictWeakOn lt l
  · obtain ⟨l', h1, h2⟩ := exists_sorted h
    exact ⟨_, .sorted h h1 h2⟩
  · exact ⟨_, .invalid h⟩

theorem strictWeak_score (l : List Candidate) : StrictWeakOn (fun a b : Candidate => a.score < b.score) l where
  irrefl _ _ := lt_irrefl _
  trans _ _ _ _ _ _ := lt_trans
  equivTrans a _ b _ c _ h1 h2 h3 h4 := by
    have e1 : a.score = b.score := le_antisymm (not_lt.1 h2) (not_lt.1 h1)
    have e2 : b.score = c.score := le_antisymm (not_lt.1 h4) (not_lt.1 h3)
    rw [e1, e2]
    exact ⟨lt_irrefl _, lt_irrefl _⟩

/-- With distinct colour times, the comparison is a strict weak order exactly when no two frames are
crossed; it is then the order of the colour images. -/
theorem before_iff {l : List (Frame G)} (hnc : ∀ f ∈ l, ∀ g ∈ l, ¬ Spec.Crossed f g)
    (hkey : ∀ f ∈ l, ∀ g ∈ l, f.rgb.1 = g.rgb.1 → f.depth = g.depth)
    {f g : Frame G} (hf : f ∈ l) (hg : g ∈ l) : before f g ↔ f.rgb.1 < g.rgb.1 := by
  constructor
  · rintro (h | h)
    · exact h
    · cases hfd : f.depth with
      | none => rw [hfd] at h; exact absurd h id
      | some x =>
        cases hgd : g.depth with
        | none => rw [hfd, hgd] at h; exact absurd h id
        | some y =>
          rw [hfd, hgd] at h
          rcases lt_trichotomy f.rgb.1 g.rgb.1 with hlt | heq | hgt
          · exact hlt
          · have := hkey f hf g hg heq
            rw [hfd, hgd] at this
            rw [Option.some.inj this] at h
            exact absurd h (lt_irrefl _)
          · exact absurd ⟨hgt, y, x, hgd, hfd, h⟩ (hnc g hg f hf)
  · exact Or.inl

theorem strictWeak_before {l : List (Frame G)} (hkey : ∀ f ∈ l, ∀ g ∈ l, f.rgb.1 = g.rgb.1 → f.depth = g.depth) :
    StrictWeakOn before l ↔ ∀ f ∈ l, ∀ g ∈ l, ¬ Spec.Crossed f g := by
  constructor
  · rintro h f hf g hg ⟨hlt, x, y, hx, hy, hyx⟩
    refine h.irrefl f hf (h.trans f hf g hg f hf (Or.inl hlt) (Or.inr ?_))
    rw [hx, hy]
    exact hyx
  · intro hnc
    have hb := fun {f g : Frame G} (hf : f ∈ l) (hg : g ∈ l) => before_iff hnc hkey hf hg
    refine ⟨fun a ha => ?_, fun a ha b hb' c hc => ?_, fun a ha b hb' c hc => ?_⟩
    · rw [hb ha ha]; exact lt_irrefl _
    · rw [hb ha hb', hb hb' hc, hb ha hc]; exact lt_trans
    · rw [hb ha hb', hb hb' ha, hb hb' hc, hb hc hb', hb ha hc, hb hc ha]
      intro h1 h2 h3 h4
      have e1 : a.rgb.1 = b.rgb.1 := le_antisymm (not_lt.1 h2) (not_lt.1 h1)
      have e2 : b.rgb.1 = c.rgb.1 := le_antisymm (not_lt.1 h4) (not_lt.1 h3)
      rw [e1, e2]
      exact ⟨lt_irrefl _, lt_irrefl _⟩

/-! ## Ground truth -/

/-- The element found is the first of the closest, within the tolerance. -/
theorem closestTo_spec {time : ℚ} : ∀ (m : TimeMap G) (best : Option (ℚ × ℚ × G)) (ready : Bool), SortedMap m →
    (ready = true → ∃ t, |time - t| < 5 / 100 ∧ ∀ e ∈ m, t < e.1) →
    (closestTo time m best ready = best ∨
      ∃ e ∈ m, closestTo time m best ready = some (|time - e.1|, e.1, e.2) ∧ |time - e.1| < 5 / 100) ∧
    (∀ b, best = some b → ∃ r, closestTo time m best ready = some r ∧ r.1 ≤ b.1) ∧
    (∀ e ∈ m, |time - e.1| < 5 / 100 → ∃ r, closestTo time m best ready = some r ∧ r.1 ≤ |time - e.1|)
  | [], best, ready, _, _ => by
    refine ⟨Or.inl rfl, fun b hb => ⟨b, hb, le_refl _⟩, by simp⟩
  | (t, g) :: m, best, ready, hs, hr => by
    have hm : SortedMap m := (List.pairwise_cons.1 hs).2
    have ht := (List.pairwise_cons.1 hs).1
    unfold closestTo
    by_cases h : |time - t| < 5 / 100
    · simp only [if_pos h]
      have hbetter : ∃ r, keepBest best (|time - t|, t, g) = some r ∧ r.1 ≤ |time - t| ∧
          (∀ b, best = some b → r.1 ≤ b.1) ∧ (best = some r ∨ r = (|time - t|, t, g)) := by
        cases best with
        | none => exact ⟨_, rfl, le_refl _, by simp, Or.inr rfl⟩
        | some b =>
          by_cases hb : |time - t| < b.1
          · refine ⟨_, if_pos hb, le_refl _, ?_, Or.inr rfl⟩
            rintro b' h'
            rw [← Option.some.inj h']; exact hb.le
          · refine ⟨b, if_neg hb, not_lt.1 hb, ?_, Or.inl rfl⟩
            rintro b' h'
            rw [← Option.some.inj h']
      obtain ⟨r, hr1, hr2, hr3, hr4⟩ := hbetter
      rw [hr1]
      obtain ⟨a1, a2, a3⟩ := closestTo_spec m (some r) true hm fun _ => ⟨t, h, ht⟩
      refine ⟨?_, ?_, ?_⟩
      · rcases a1 with a1 | ⟨e, he, a1⟩
        · rcases hr4 with hr4 | hr4
          · left; rw [a1, hr4]
          · right; exact ⟨(t, g), List.mem_cons_self, by rw [a1, hr4], h⟩
        · right; exact ⟨e, List.mem_cons_of_mem _ he, a1⟩
      · intro b hb
        obtain ⟨r', h1, h2⟩ := a2 r rfl
        exact ⟨r', h1, le_trans h2 (hr3 b hb)⟩
      · intro e he hlt
        rcases List.mem_cons.1 he with rfl | he
        · obtain ⟨r', h1, h2⟩ := a2 r rfl
          exact ⟨r', h1, le_trans h2 hr2⟩
        · exact a3 e he hlt
    · simp only [if_neg h]
      cases ready with
      | false =>
        rw [if_neg (by simp)]
        obtain ⟨a1, a2, a3⟩ := closestTo_spec m best false hm (by simp)
        refine ⟨?_, a2, ?_⟩
        · rcases a1 with a1 | ⟨e, he, a1⟩
          · exact Or.inl a1
          · exact Or.inr ⟨e, List.mem_cons_of_mem _ he, a1⟩
        · intro e he hlt
          rcases List.mem_cons.1 he with rfl | he
          · exact absurd hlt h
          · exact a3 e he hlt
      | true =>
        rw [if_pos rfl]
        refine ⟨Or.inl rfl, fun b hb => ⟨b, hb, le_refl _⟩, fun e he hlt => ?_⟩
        obtain ⟨t0, h0, hlt0⟩ := hr rfl
        have htd : t0 < t := hlt0 (t, g) List.mem_cons_self
        rcases List.mem_cons.1 he with rfl | he
        · exact absurd hlt h
        · exfalso
          have hde : t < e.1 := ht e he
          rw [abs_lt] at h0 hlt
          rw [not_lt, le_abs] at h
          rcases h with h | h <;> linarith

/-- Among the ground truth elements `m`, the one of the frame is the closest in time, if one is within
the tolerance. -/
def ClosestIn (time : ℚ) (m : TimeMap G) : Option (ℚ × G) → Prop
  | none => ∀ e ∈ m, 5 / 100 ≤ |time - e.1|
  | some g => g ∈ m ∧ |time - g.1| < 5 / 100 ∧ ∀ e ∈ m, |time - g.1| ≤ |time - e.1|

theorem closestTo_none {time : ℚ} {m : TimeMap G} (hs : SortedMap m) :
    match closestTo time m none false with
    | none => ClosestIn time m none
    | some r => ClosestIn time m (some r.2) := by
  obtain ⟨a1, -, a3⟩ := closestTo_spec (time := time) m none false hs (by simp)
  cases h : closestTo time m none false with
  | none =>
    intro e he
    by_contra hlt
    obtain ⟨r, h1, -⟩ := a3 e he (not_le.1 hlt)
    rw [h] at h1; cases h1
  | some r =>
    rw [h] at a1 a3
    rcases a1 with a1 | ⟨e, he, h1, h2⟩
    · cases a1
    · have := Option.some.inj h1
      subst this
      refine ⟨he, h2, fun x hx => ?_⟩
      by_cases hlt : |time - x.1| < 5 / 100
      · obtain ⟨r, h3, h4⟩ := a3 x hx hlt
        rw [← Option.some.inj h3] at h4
        exact h4
      · exact le_trans h2.le (not_lt.1 hlt)

theorem assignGroundTruth_spec : ∀ (frames : List (Frame G)) (truth : TimeMap G), SortedMap truth →
    (assignGroundTruth frames truth).map (fun f => (f.rgb, f.depth)) = frames.map (fun f => (f.rgb, f.depth)) ∧
    (∀ pre f post, assignGroundTruth frames truth = pre ++ f :: post →
      ClosestIn f.rgb.1 (truth.filter fun e => ∀ g ∈ pre.filterMap (·.groundTruth), e.1 ≠ g.1) f.groundTruth)
  | [], truth, _ => ⟨rfl, fun pre f post h => by simp [assignGroundTruth] at h⟩
  | x :: frames, truth, hs => by
    have hc := closestTo_none (time := x.rgb.1) hs
    unfold assignGroundTruth
    cases h : closestTo x.rgb.1 truth none false with
    | none =>
      rw [h] at hc
      obtain ⟨a1, a2⟩ := assignGroundTruth_spec frames truth hs
      refine ⟨by simp [a1], fun pre f post he => ?_⟩
      rcases pre with _ | ⟨p, pre⟩
      · obtain ⟨rfl, -⟩ := List.cons.inj he
        simpa using hc
      · obtain ⟨rfl, he'⟩ := List.cons.inj he
        exact a2 pre f post he'
    | some r =>
      obtain ⟨s, t, g⟩ := r
      rw [h] at hc
      obtain ⟨a1, a2⟩ := assignGroundTruth_spec frames (erase t truth) (hs.erase t)
      refine ⟨by simp [a1], fun pre f post he => ?_⟩
      rcases pre with _ | ⟨p, pre⟩
      · obtain ⟨rfl, -⟩ := List.cons.inj he
        simpa using hc
      · obtain ⟨rfl, he'⟩ := List.cons.inj he
        have := a2 pre f post he'
        have heq : (erase t truth).filter (fun e => ∀ g ∈ pre.filterMap (·.groundTruth), e.1 ≠ g.1) =
            truth.filter (fun e => ∀ g' ∈ (({ x with groundTruth := some (t, g) } : Frame G) :: pre).filterMap
              (·.groundTruth), e.1 ≠ g'.1) := by
          rw [Tum.erase, List.filter_filter]
          congr 1
          funext e
          simp only [List.filterMap_cons, List.forall_mem_cons]
          rw [← Bool.decide_and]
          congr 1
          exact propext and_comm
        rw [heq] at this
        exact this

end RgbdSlam.Tum
