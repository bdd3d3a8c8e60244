import Verif.Spec.Primitives

/-
Lemmas about the direction histogram.
-/
namespace RgbdSlam.Histogram

open RgbdSlam RgbdSlam.Primitives.Spec

theorem getD_set {α : Type _} (l : List α) (i j : Nat) (a d : α) :
    (l.set i a).getD j d = if j = i ∧ i < l.length then a else l.getD j d := by
  simp only [List.getD_eq_getElem?_getD, List.getElem?_set]
  by_cases h : i = j
  · subst h
    by_cases h2 : i < l.length
    · simp [h2]
    · simp [h2]
  · have h' : ¬ j = i := fun e => h e.symm
    simp [h, h']

/-! ### The bin of a direction -/

theorem floor_range {u : Rat} (h0 : 0 ≤ u) (h1 : u ≤ 1) :
    0 ≤ (((size : Rat) - 1) * u).floor ∧ (((size : Rat) - 1) * u).floor ≤ 19 := by
  have hs : ((size : Rat) - 1) = 19 := by decide +kernel
  rw [hs]
  refine ⟨Rat.le_floor_iff.mpr ?_, ?_⟩
  · grind
  · have : (19 * u).floor < 20 := Rat.floor_lt_iff.mpr (by push_cast; grind)
    omega

theorem bin_spec {u v : Rat} (hu0 : 0 ≤ u) (hu1 : u ≤ 1) (hv0 : 0 ≤ v) (hv1 : v ≤ 1) :
    0 ≤ bin u v ∧ bin u v < 400 ∧ Quantised u v (bin u v).toNat := by
  have hs : ((size : Rat) - 1) = 19 := by decide +kernel
  have hx := floor_range hu0 hu1
  have hy := floor_range hv0 hv1
  rw [hs] at hx hy
  have hxl : ((19 * u).floor : Rat) ≤ 19 * u := Rat.floor_le _
  have hxr : 19 * u < ((19 * u).floor : Rat) + 1 := by have := @Rat.lt_floor (19 * u); grind
  have hyl : ((19 * v).floor : Rat) ≤ 19 * v := Rat.floor_le _
  have hyr : 19 * v < ((19 * v).floor : Rat) + 1 := by have := @Rat.lt_floor (19 * v); grind
  unfold bin
  rw [hs]
  have hsz : (size : Int) = 20 := rfl
  simp only [hsz]
  generalize (19 * u).floor = i at *
  generalize (19 * v).floor = j at *
  obtain ⟨i, rfl⟩ := Int.eq_ofNat_of_zero_le hx.1
  obtain ⟨j, rfl⟩ := Int.eq_ofNat_of_zero_le hy.1
  by_cases h : (i : Int) > 0
  · simp only [h, if_true]
    refine ⟨by omega, by omega, i, j, by omega, ?_, ?_, Or.inr ⟨by omega, ?_, ?_⟩⟩ <;>
      first | exact_mod_cast hxl | exact_mod_cast hxr | exact_mod_cast hyl | exact_mod_cast hyr
  · simp only [h, if_false]
    refine ⟨by omega, by omega, i, 0, by omega, ?_, ?_, Or.inl ⟨by omega, rfl⟩⟩ <;>
      first | exact_mod_cast hxl | exact_mod_cast hxr

theorem quantised_unique {u v : Rat} {a b : Nat} (ha : Quantised u v a) (hb : Quantised u v b) : a = b := by
  have key : ∀ {x : Rat} {i j : Nat}, (i : Rat) ≤ x → x < i + 1 → (j : Rat) ≤ x → x < j + 1 → i = j := by
    intro x i j h1 h2 h3 h4
    have h5 : (i : Rat) < j + 1 := by grind
    have h6 : (j : Rat) < i + 1 := by grind
    have h7 : i < j + 1 := by exact_mod_cast h5
    have h8 : j < i + 1 := by exact_mod_cast h6
    omega
  obtain ⟨i, j, rfl, h1, h2, h3⟩ := ha
  obtain ⟨i', j', rfl, h1', h2', h3'⟩ := hb
  have hi := key h1 h2 h1' h2'
  subst hi
  rcases h3 with ⟨h, rfl⟩ | ⟨h, hj1, hj2⟩
  · rcases h3' with ⟨_, rfl⟩ | ⟨h', _⟩
    · rfl
    · omega
  · rcases h3' with ⟨h', _⟩ | ⟨_, hj1', hj2'⟩
    · omega
    · rw [key hj1 hj2 hj1' hj2']

/-! ### State of the histogram after a sequence of operations -/

/-- The bin a cell is given at initialisation, -1 for a cell outside of the mask. -/
def binAt (points : List (Option (Rat × Rat))) (i : Nat) : Int :=
  match points[i]? with
  | some (some (u, v)) => bin u v
  | _ => -1

/-- The cells of bin `b` that were not removed. -/
def left (points : List (Option (Rat × Rat))) (removed : List Nat) (b : Nat) : List Nat :=
  (List.range points.length).filter fun i => decide (binAt points i = (b : Int)) && !removed.contains i

structure Inv (points : List (Option (Rat × Rat))) (removed : List Nat) (h : Hist) : Prop where
  lenC : h.counts.length = 400
  lenB : h.bins.length = points.length
  bins : ∀ i, i < points.length → h.bins.getD i (-1) = if i ∈ removed then 1 else binAt points i
  counts : ∀ b, b < 400 → b ≠ 1 → h.counts.getD b 0 = (left points removed b).length
  count1 : h.counts.getD 1 0 ≤ (left points removed 1).length
  count1eq : removed = [] → h.counts.getD 1 0 = (left points removed 1).length

theorem binAt_append_lt {ps : List (Option (Rat × Rat))} {p : Option (Rat × Rat)} {i : Nat}
    (h : i < ps.length) : binAt (ps ++ [p]) i = binAt ps i := by
  unfold binAt
  rw [List.getElem?_append_left h]

theorem left_append (ps : List (Option (Rat × Rat))) (p : Option (Rat × Rat)) (b : Nat) :
    (left (ps ++ [p]) [] b).length =
      (left ps [] b).length + if binAt (ps ++ [p]) ps.length = (b : Int) then 1 else 0 := by
  unfold left
  rw [List.length_append, List.length_singleton, List.range_succ, List.filter_append, List.length_append]
  congr 1
  · congr 1
    apply List.filter_congr
    intro i hi
    rw [binAt_append_lt (List.mem_range.mp hi)]
  · by_cases h : binAt (ps ++ [p]) ps.length = (b : Int)
    · simp [h]
    · simp [h]

theorem initLoop_inv {rest : List (Option (Rat × Rat))} :
    ∀ {done : List (Option (Rat × Rat))} {h : Hist}, ValidDirections rest → Inv done [] h →
      ∃ h', initLoop rest h = .ok h' ∧ Inv (done ++ rest) [] h' := by
  induction rest with
  | nil =>
    intro done h _ hi
    exact ⟨h, rfl, by simpa using hi⟩
  | cons p ps ih =>
    intro done h hv hi
    have hv' : ValidDirections ps := fun u v hm => hv u v (List.mem_cons_of_mem _ hm)
    match p with
    | none =>
      have hb : binAt (done ++ [none]) done.length = -1 := by simp [binAt]
      have : Inv (done ++ [none]) [] { h with bins := h.bins ++ [-1] } := by
        refine ⟨hi.lenC, by simp [hi.lenB], ?_, ?_, ?_, ?_⟩
        · intro i hlt
          simp only [List.length_append, List.length_singleton] at hlt
          by_cases he : i = done.length
          · subst he
            rw [hb, ← hi.lenB]
            simp
          · have hlt' : i < done.length := by omega
            have := hi.bins i hlt'
            rw [binAt_append_lt hlt', ← this]
            rw [List.getD_eq_getElem?_getD, List.getElem?_append_left (by rw [hi.lenB]; exact hlt'),
              ← List.getD_eq_getElem?_getD]
        · intro b hb1 hb2
          rw [left_append, hb, if_neg (by omega)]
          exact hi.counts b hb1 hb2
        · rw [left_append, hb, if_neg (by omega)]
          exact hi.count1
        · intro _
          rw [left_append, hb, if_neg (by omega)]
          exact hi.count1eq rfl
      obtain ⟨h', h1, h2⟩ := ih hv' this
      refine ⟨h', ?_, by simpa using h2⟩
      rw [initLoop]; exact h1
    | some (u, v) =>
      obtain ⟨hu0, hu1, hv0, hv1⟩ := hv u v List.mem_cons_self
      obtain ⟨hb0, hb1, _⟩ := bin_spec hu0 hu1 hv0 hv1
      have hb : binAt (done ++ [some (u, v)]) done.length = bin u v := by simp [binAt]
      obtain ⟨k, hk⟩ := Int.eq_ofNat_of_zero_le hb0
      have hk4 : k < 400 := by omega
      have hcnt : ∀ b, b < 400 → h.counts.getD b 0 = (left done [] b).length →
          (h.counts.set k (h.counts.getD k 0 + 1)).getD b 0 =
            (left (done ++ [some (u, v)]) [] b).length := by
        intro b hb4 he
        rw [left_append, hb, getD_set, hi.lenC, hk]
        by_cases hbk : b = k
        · subst hbk
          rw [if_pos ⟨rfl, hk4⟩, if_pos rfl, he]
        · rw [if_neg (fun e => hbk e.1), if_neg (by omega), he]
          rfl
      have : Inv (done ++ [some (u, v)]) []
          { counts := h.counts.set k (h.counts.getD k 0 + 1), bins := h.bins ++ [bin u v] } := by
        refine ⟨by simp [hi.lenC], by simp [hi.lenB], ?_, ?_, ?_, ?_⟩
        · intro i hlt
          simp only [List.length_append, List.length_singleton] at hlt
          by_cases he : i = done.length
          · subst he
            rw [hb, ← hi.lenB]
            simp
          · have hlt' : i < done.length := by omega
            have := hi.bins i hlt'
            rw [binAt_append_lt hlt', ← this]
            rw [List.getD_eq_getElem?_getD, List.getElem?_append_left (by rw [hi.lenB]; exact hlt'),
              ← List.getD_eq_getElem?_getD]
        · intro b hb1 hb2
          exact hcnt b hb1 (hi.counts b hb1 hb2)
        · exact Nat.le_of_eq (hcnt 1 (by omega) (hi.count1eq rfl))
        · intro _
          exact hcnt 1 (by omega) (hi.count1eq rfl)
      obtain ⟨h', h1, h2⟩ := ih hv' this
      refine ⟨h', ?_, by simpa using h2⟩
      rw [initLoop]
      have hcond : ¬ (bin u v < 0 ∨ (h.counts.length : Int) ≤ bin u v) := by
        rw [hi.lenC]; omega
      simp only [if_neg hcond]
      rw [show (bin u v).toNat = k by omega]
      exact h1

theorem inv_reset : Inv [] [] reset := by
  have h0 : ∀ b, reset.counts.getD b 0 = 0 := by
    intro b
    rw [reset, List.getD_eq_getElem?_getD, List.getElem?_replicate]
    split <;> rfl
  refine ⟨List.length_replicate, rfl, ?_, ?_, ?_, ?_⟩
  · intro i hi; simp at hi
  · intro b _ _; rw [h0]; rfl
  · rw [h0]; omega
  · intro _; rw [h0]; rfl

theorem init_inv {points : List (Option (Rat × Rat))} (hv : ValidDirections points) :
    ∃ h, init points = .ok h ∧ Inv points [] h := by
  have := initLoop_inv hv inv_reset
  simpa [init] using this

theorem binAt_valid {points : List (Option (Rat × Rat))} (hv : ValidDirections points) (i : Nat) :
    binAt points i < 400 := by
  unfold binAt
  split
  · rename_i u v h
    obtain ⟨h1, h2, h3, h4⟩ := hv u v (List.mem_of_getElem? h)
    exact (bin_spec h1 h2 h3 h4).2.1
  · omega

theorem binAt_inBin {points : List (Option (Rat × Rat))} (hv : ValidDirections points) {i k : Nat} :
    binAt points i = (k : Int) ↔ InBin points k i := by
  unfold binAt InBin
  constructor
  · intro h
    split at h
    · rename_i u v hp
      obtain ⟨h1, h2, h3, h4⟩ := hv u v (List.mem_of_getElem? hp)
      refine ⟨u, v, hp, ?_⟩
      have := (bin_spec h1 h2 h3 h4).2.2
      rw [h] at this
      simpa using this
    · omega
  · rintro ⟨u, v, hp, hq⟩
    rw [hp]
    obtain ⟨h1, h2, h3, h4⟩ := hv u v (List.mem_of_getElem? hp)
    have hs := bin_spec h1 h2 h3 h4
    have := quantised_unique hs.2.2 hq
    simp only
    omega

theorem left_lists {points : List (Option (Rat × Rat))} (hv : ValidDirections points) (removed : List Nat)
    (k : Nat) : Lists (left points removed k) (fun i => InBin points k i ∧ i ∉ removed) := by
  refine ⟨List.Pairwise.filter _ List.pairwise_lt_range, ?_⟩
  intro i
  unfold left
  simp only
  rw [List.mem_filter, ← binAt_inBin hv]
  constructor
  · rintro ⟨_, h⟩
    simpa using h
  · rintro ⟨h1, h2⟩
    refine ⟨?_, by simp [h1, h2]⟩
    rw [List.mem_range]
    unfold binAt at h1
    split at h1
    · rename_i u v hp
      exact (List.getElem?_eq_some_iff.mp hp).1
    · omega

theorem lists_unique {a b : List Nat} {p : Nat → Prop} (ha : Lists a p) (hb : Lists b p) : a = b := by
  apply List.Perm.eq_of_pairwise (le := fun a b => a < b) _ ha.1 hb.1
  · apply (List.perm_ext_iff_of_nodup (ha.1.imp (fun h => Nat.ne_of_lt h))
      (hb.1.imp (fun h => Nat.ne_of_lt h))).mpr
    intro i
    rw [ha.2, hb.2]
  · intro x y _ _ h1 h2
    omega

/-! ### Removing a point -/

theorem length_filter_drop {l : List Nat} {p q : Nat → Bool} {a : Nat} (hn : l.Nodup) (ha : a ∈ l)
    (hp : p a = true) (hq : q a = false) (h : ∀ i, i ≠ a → q i = p i) :
    (l.filter q).length + 1 = (l.filter p).length := by
  induction l with
  | nil => cases ha
  | cons x xs ih =>
    have hn' := List.nodup_cons.mp hn
    by_cases hx : x = a
    · subst hx
      rw [List.filter_cons_of_pos hp, List.filter_cons_of_neg (by simp [hq]), List.length_cons]
      congr 2
      apply List.filter_congr
      intro i hi
      exact h i (fun e => hn'.1 (e ▸ hi))
    · have ha' : a ∈ xs := by
        rcases List.mem_cons.mp ha with h | h
        · exact absurd h.symm hx
        · exact h
      have := ih hn'.2 ha'
      rw [List.filter_cons, List.filter_cons, h x hx]
      split
      · simp only [List.length_cons]; omega
      · exact this

theorem left_remove_same {points : List (Option (Rat × Rat))} {removed : List Nat} {i b : Nat}
    (hi : i < points.length) (hr : i ∉ removed) (hb : binAt points i = (b : Int)) :
    (left points (i :: removed) b).length + 1 = (left points removed b).length := by
  apply length_filter_drop (a := i) List.nodup_range (List.mem_range.mpr hi)
  · simp [hb, hr]
  · simp
  · intro j hj
    simp [hj]

theorem left_remove_other {points : List (Option (Rat × Rat))} {removed : List Nat} {i b : Nat}
    (h : i ∈ removed ∨ binAt points i ≠ (b : Int)) :
    left points (i :: removed) b = left points removed b := by
  apply List.filter_congr
  intro j _
  by_cases hj : j = i
  · subst hj
    rcases h with h | h
    · simp [h]
    · simp [h]
  · simp [hj]

theorem remove_inv {points : List (Option (Rat × Rat))} (hv : ValidDirections points) {removed : List Nat}
    {h : Hist} (hi : Inv points removed h) {id : Nat} (hid : id < points.length)
    (hm : binAt points id ≠ -1) :
    ∃ h', removePoint h id = .ok h' ∧ Inv points (id :: removed) h' := by
  have hb400 : binAt points id < 400 := binAt_valid hv id
  have hb0 : 0 ≤ binAt points id := by
    unfold binAt at hm ⊢
    split
    · rename_i u v hp
      obtain ⟨h1, h2, h3, h4⟩ := hv u v (List.mem_of_getElem? hp)
      exact (bin_spec h1 h2 h3 h4).1
    · rename_i hx
      split at hm
      · rename_i u v hp
        exact absurd hp (hx u v)
      · exact absurd rfl hm
  obtain ⟨k, hk⟩ := Int.eq_ofNat_of_zero_le hb0
  -- the bin read is the original one or 1
  have hbin := hi.bins id hid
  have hkey : ∃ b : Nat, b < 400 ∧ h.bins.getD id (-1) = (b : Int) ∧
      ((id ∈ removed ∧ b = 1) ∨ (id ∉ removed ∧ binAt points id = (b : Int))) := by
    by_cases hr : id ∈ removed
    · exact ⟨1, by omega, by rw [hbin, if_pos hr]; rfl, Or.inl ⟨hr, rfl⟩⟩
    · exact ⟨k, by omega, by rw [hbin, if_neg hr, hk], Or.inr ⟨hr, hk⟩⟩
  obtain ⟨b, hb4, hbe, hcase⟩ := hkey
  have hrm : removePoint h id = .ok
      { counts := if h.counts.getD b 0 ≠ 0 then h.counts.set b (h.counts.getD b 0 - 1) else h.counts,
        bins := h.bins.set id 1 } := by
    unfold removePoint
    rw [if_neg (by rw [hi.lenB]; omega)]
    simp only [hbe]
    rw [if_neg (by rw [hi.lenC]; omega)]
    simp
  refine ⟨_, hrm, ?_, by simp [hi.lenB], ?_, ?_, ?_, ?_⟩
  · simp only
    split
    · simp [hi.lenC]
    · exact hi.lenC
  · intro i hlt
    simp only
    rw [getD_set, hi.lenB]
    by_cases he : i = id
    · subst he
      simp [hlt]
    · rw [if_neg (fun e => he e.1), hi.bins i hlt]
      simp [he]
  · intro c hc hc1
    have hcc := hi.counts c hc hc1
    simp only
    by_cases hcb : c = b
    · subst hcb
      rcases hcase with ⟨_, h1⟩ | ⟨hr, hbp⟩
      · exact absurd h1 hc1
      · have := left_remove_same hid hr hbp
        rw [if_pos (by omega), getD_set, if_pos ⟨rfl, by rw [hi.lenC]; omega⟩]
        omega
    · have hl : left points (id :: removed) c = left points removed c := by
        apply left_remove_other
        rcases hcase with ⟨hr, _⟩ | ⟨_, hbp⟩
        · exact Or.inl hr
        · right; omega
      rw [hl, ← hcc]
      split
      · rw [getD_set, if_neg (fun e => hcb e.1)]
      · rfl
  · simp only
    have h1 := hi.count1
    by_cases hb1 : b = 1
    · subst hb1
      have hge : (left points removed 1).length ≤ (left points (id :: removed) 1).length + 1 := by
        rcases hcase with ⟨hr, _⟩ | ⟨hr, hbp⟩
        · rw [left_remove_other (Or.inl hr)]; omega
        · have := left_remove_same hid hr hbp; omega
      split
      · rw [getD_set, if_pos ⟨rfl, by rw [hi.lenC]; omega⟩]; omega
      · omega
    · have hl : left points (id :: removed) 1 = left points removed 1 := by
        apply left_remove_other
        rcases hcase with ⟨_, hb⟩ | ⟨_, hbp⟩
        · exact absurd hb hb1
        · right; omega
      rw [hl]
      split
      · rw [getD_set, if_neg (fun e => hb1 e.1.symm)]; exact h1
      · exact h1
  · intro h; cases h

theorem removeAll_inv {points : List (Option (Rat × Rat))} (hv : ValidDirections points) {ids : List Nat} :
    ∀ {removed : List Nat} {h : Hist}, Inv points removed h →
      (∀ i, i ∈ ids → i < points.length ∧ binAt points i ≠ -1) →
      ∃ h', removeAll ids h = .ok h' ∧ Inv points (ids.reverse ++ removed) h' := by
  induction ids with
  | nil => intro removed h hi _; exact ⟨h, rfl, by simpa using hi⟩
  | cons i is ih =>
    intro removed h hi hids
    obtain ⟨h1, hr, hi1⟩ := remove_inv hv hi (hids i List.mem_cons_self).1 (hids i List.mem_cons_self).2
    obtain ⟨h2, hr2, hi2⟩ := ih hi1 (fun j hj => hids j (List.mem_cons_of_mem _ hj))
    refine ⟨h2, ?_, by simpa using hi2⟩
    rw [removeAll, hr, Outcome.bind_ok, hr2]

/-! ### The most frequent bin -/

theorem scan_spec {cs : List Nat} : ∀ {i : Nat} {b : Int} {m : Nat},
    m ≤ (scan cs i (b, m)).2 ∧ (∀ k, cs.getD k 0 ≤ (scan cs i (b, m)).2) ∧
    ((scan cs i (b, m) = (b, m)) ∨
      ∃ k, k < cs.length ∧ (scan cs i (b, m)).1 = ((i + k : Nat) : Int) ∧
        (scan cs i (b, m)).2 = cs.getD k 0 ∧ m < cs.getD k 0) := by
  induction cs with
  | nil => intro i b m; simp [scan]
  | cons c cs ih =>
    intro i b m
    rw [scan]
    by_cases hc : c > m
    · simp only [hc, if_true]
      obtain ⟨h1, h2, h3⟩ := @ih (i + 1) (i : Int) c
      refine ⟨by omega, ?_, ?_⟩
      · intro k
        cases k with
        | zero => simpa using h1
        | succ k => simpa using h2 k
      · right
        rcases h3 with h3 | ⟨k, hk, he1, he2, he3⟩
        · exact ⟨0, by simp, by rw [h3]; simp, by rw [h3]; simp, by simpa using hc⟩
        · refine ⟨k + 1, by simp; omega, ?_, ?_, ?_⟩
          · rw [he1]; congr 1; omega
          · rw [he2]; simp
          · rw [List.getD_cons_succ]; omega
    · simp only [hc, if_false]
      obtain ⟨h1, h2, h3⟩ := @ih (i + 1) b m
      refine ⟨h1, ?_, ?_⟩
      · intro k
        cases k with
        | zero => simp; omega
        | succ k => simpa using h2 k
      · rcases h3 with h3 | ⟨k, hk, he1, he2, he3⟩
        · exact Or.inl h3
        · right
          refine ⟨k + 1, by simp; omega, ?_, ?_, ?_⟩
          · rw [he1]; congr 1; omega
          · rw [he2]; simp
          · simpa using he3

/-- Either all counters are zero and there is no candidate, or the candidates are the cells marked with a bin
of largest, positive counter. -/
theorem candidates_spec (h : Hist) :
    (candidates h = [] ∧ ∀ k, h.counts.getD k 0 = 0) ∨
    ∃ b : Nat, b < h.counts.length ∧ 0 < h.counts.getD b 0 ∧ (∀ k, h.counts.getD k 0 ≤ h.counts.getD b 0) ∧
      candidates h = (List.range h.bins.length).filter (fun i => h.bins.getD i (-1) == (b : Int)) := by
  obtain ⟨_, h2, h3⟩ := @scan_spec h.counts 0 (-1) 0
  unfold candidates
  rcases h3 with h3 | ⟨k, hk, he1, he2, he3⟩
  · left
    rw [h3] at h2 ⊢
    exact ⟨by simp, fun k => Nat.le_zero.mp (h2 k)⟩
  · right
    refine ⟨k, hk, he3, ?_, ?_⟩
    · intro j; rw [← he2]; exact h2 j
    · simp only [he1, Nat.zero_add]
      rw [if_pos (by omega)]

end RgbdSlam.Histogram
