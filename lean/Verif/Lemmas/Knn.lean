import Verif.Lemmas.Keypoints
namespace RgbdSlam.Keypoints

variable {Desc : Type}

theorem insertCand_perm (c : Nat × Nat) (l : List (Nat × Nat)) : (insertCand c l).Perm (c :: l) := by
  induction l with
  | nil => exact List.Perm.refl _
  | cons d ds ih =>
    unfold insertCand
    split
    · exact List.Perm.refl _
    · exact (List.Perm.cons d ih).trans (List.Perm.swap ..)

theorem insertCand_sorted (c : Nat × Nat) (l : List (Nat × Nat))
    (h : l.Pairwise fun a b => a.1 ≤ b.1) : (insertCand c l).Pairwise fun a b => a.1 ≤ b.1 := by
  induction l with
  | nil => simp [insertCand]
  | cons d ds ih =>
    rw [List.pairwise_cons] at h
    unfold insertCand
    split
    · rename_i hlt
      rw [List.pairwise_cons, List.pairwise_cons]
      refine ⟨fun a ha => ?_, h⟩
      rcases List.mem_cons.1 ha with rfl | ha
      · omega
      · have := h.1 a ha; omega
    · rename_i hge
      rw [List.pairwise_cons]
      refine ⟨fun a ha => ?_, ih h.2⟩
      rcases List.mem_cons.1 ((insertCand_perm c ds).mem_iff.1 ha) with rfl | ha
      · omega
      · exact h.1 a ha

theorem foldl_insert (l acc : List (Nat × Nat)) (h : acc.Pairwise fun a b => a.1 ≤ b.1) :
    (l.foldl (fun l c => insertCand c l) acc).Perm (l ++ acc) ∧
    (l.foldl (fun l c => insertCand c l) acc).Pairwise fun a b => a.1 ≤ b.1 := by
  induction l generalizing acc with
  | nil => exact ⟨List.Perm.refl _, h⟩
  | cons c l ih =>
    obtain ⟨a1, a2⟩ := ih (insertCand c acc) (insertCand_sorted c acc h)
    refine ⟨?_, a2⟩
    refine a1.trans ?_
    refine (List.Perm.append_left l (insertCand_perm c acc)).trans ?_
    exact List.perm_middle

/-- The candidates of `knn2` before sorting. -/
def cands (dist : Desc → Nat) (descs : List Desc) (mask : List Bool) : List (Nat × Nat) :=
  (descs.zipIdx.filter fun (_, i) => mask[i]? == some true).map fun (d, i) => (dist d, i)

theorem mem_cands {dist : Desc → Nat} {descs : List Desc} {mask : List Bool} {n i : Nat} :
    (n, i) ∈ cands dist descs mask ↔ mask[i]? = some true ∧ ∃ d, descs[i]? = some d ∧ dist d = n := by
  simp only [cands, List.mem_map, List.mem_filter, Prod.mk.injEq, Prod.exists, beq_iff_eq]
  constructor
  · rintro ⟨d, j, ⟨h1, h2⟩, rfl, rfl⟩
    exact ⟨h2, d, List.mem_zipIdx_iff_getElem?.1 h1, rfl⟩
  · rintro ⟨h1, d, h2, rfl⟩
    exact ⟨d, i, ⟨List.mem_zipIdx_iff_getElem?.2 h2, h1⟩, rfl, rfl⟩

theorem cands_nodup (dist : Desc → Nat) (descs : List Desc) (mask : List Bool) :
    ((cands dist descs mask).map (·.2)).Nodup := by
  have : ((descs.zipIdx.filter fun (_, i) => mask[i]? == some true).map (·.2)).Nodup := by
    have h : (descs.zipIdx.map (·.2)).Nodup := by
      rw [List.zipIdx_map_snd]; exact List.nodup_range'
    exact h.sublist (List.Sublist.map _ List.filter_sublist)
  simpa [cands, Function.comp_def] using this

/-- The ratio test: what the two best neighbours decide. -/
def ratio (l : List (Nat × Nat)) : List Nat :=
  match l with
  | a :: b :: _ => if (a.1 : Rat) < 7 / 10 * b.1 then [a.2] else []
  | [a] => [a.2]
  | [] => []

theorem ratio_take (l : List (Nat × Nat)) : ratio (l.take 2) = ratio l := by
  match l with
  | [] => rfl
  | [a] => rfl
  | a :: b :: _ => rfl

theorem ratio_spec {l c : List (Nat × Nat)} (hp : l.Perm c) (hs : l.Pairwise fun a b => a.1 ≤ b.1)
    (hn : (c.map (·.2)).Nodup) (i : Nat) :
    ratio l = [i] ↔ ∃ n, (n, i) ∈ c ∧ ∀ m j, (m, j) ∈ c → j ≠ i → 10 * n < 7 * m := by
  have hn' : (l.map (·.2)).Nodup := (List.Perm.nodup_iff (hp.map (fun q : Nat × Nat => q.2))).2 hn
  have cast : ∀ a b : Nat, ((a : Rat) < 7 / 10 * b) ↔ 10 * a < 7 * b := by
    intro a b
    constructor
    · intro h
      have h2 : ((10 * a : Nat) : Rat) < ((7 * b : Nat) : Rat) := by
        rw [Rat.natCast_mul, Rat.natCast_mul]
        have e1 : ((10 : Nat) : Rat) = 10 := rfl
        have e2 : ((7 : Nat) : Rat) = 7 := rfl
        rw [e1, e2]; grind
      exact Rat.natCast_lt_natCast.1 h2
    · intro h
      have h2 := Rat.natCast_lt_natCast.2 h
      rw [Rat.natCast_mul, Rat.natCast_mul] at h2
      have e1 : ((10 : Nat) : Rat) = 10 := rfl
      have e2 : ((7 : Nat) : Rat) = 7 := rfl
      rw [e1, e2] at h2; grind
  match l, hp, hs, hn' with
  | [], hp, hs, hn' =>
    have : c = [] := hp.symm.eq_nil
    subst this
    simp [ratio]
  | [a], hp, hs, hn' =>
    have : c = [a] := List.perm_singleton.1 hp.symm
    subst this
    simp only [ratio, List.cons.injEq, and_true, List.mem_singleton]
    constructor
    · rintro rfl
      refine ⟨a.1, rfl, fun m j h hj => ?_⟩
      rw [← h] at hj; exact absurd rfl hj
    · rintro ⟨n, h, -⟩; rw [← h]
  | a :: b :: rest, hp, hs, hn' =>
    rw [List.pairwise_cons, List.pairwise_cons] at hs
    simp only [List.map_cons, List.nodup_cons, List.mem_cons, not_or] at hn'
    have key : ∀ m j, (m, j) ∈ c → j ≠ a.2 → b.1 ≤ m := by
      intro m j h hj
      have h := hp.mem_iff.2 h
      rcases List.mem_cons.1 h with h | h
      · rw [← h] at hj; exact absurd rfl hj
      · rcases List.mem_cons.1 h with h | h
        · rw [← h]; exact Nat.le_refl _
        · exact hs.2.1 _ h
    have ha : a ∈ c := hp.mem_iff.1 (by simp)
    have hb : b ∈ c := hp.mem_iff.1 (by simp)
    have hab : b.2 ≠ a.2 := fun e => hn'.1.1 e.symm
    have er : ratio (a :: b :: rest) = if (a.1 : Rat) < 7 / 10 * b.1 then [a.2] else [] := rfl
    rw [er]
    constructor
    · intro h
      split at h
      · rename_i hc
        simp only [List.cons.injEq, and_true] at h
        subst h
        rw [cast] at hc
        refine ⟨a.1, ha, fun m j hm hj => ?_⟩
        have := key m j hm hj
        omega
      · cases h
    · rintro ⟨n, hin, hall⟩
      by_cases hia : i = a.2
      · subst hia
        have hna : n = a.1 := by
          have h := hp.mem_iff.2 hin
          rcases List.mem_cons.1 h with h | h
          · rw [← h]
          · exact absurd (List.mem_map_of_mem (f := fun q : Nat × Nat => q.2) h) (by
              simp only [List.map_cons, List.mem_cons, not_or]; exact hn'.1)
        have := hall b.1 b.2 hb hab
        rw [if_pos]
        rw [cast, ← hna]; exact this
      · have h1 := hall a.1 a.2 ha (fun e => hia e.symm)
        have h2 : a.1 ≤ n := by
          have h := hp.mem_iff.2 hin
          rcases List.mem_cons.1 h with h | h
          · rw [← h]; exact Nat.le_refl _
          · exact hs.1 _ h
        omega

theorem ratio_single (l : List (Nat × Nat)) : ratio l = [] ∨ ∃ i, ratio l = [i] := by
  unfold ratio
  split
  · split
    · exact .inr ⟨_, rfl⟩
    · exact .inl rfl
  · exact .inr ⟨_, rfl⟩
  · exact .inl rfl

theorem matchIndexes_eq {dist : Desc → Desc → Nat} {h : Handler Desc} {p : Pt} {desc : Desc}
    {flags : List Bool} {radius : Nat} {res : List Nat}
    (hr : matchIndexes dist h p desc flags radius = .ok res) :
    (res = [] ∧ (h.keypoints = [] ∨ h.descs = [])) ∨
    ∃ m, mask h p flags (cellRadius radius) = .ok m ∧
      res = ratio ((cands (dist desc) h.descs m).foldl (fun l c => insertCand c l) []) := by
  unfold matchIndexes at hr
  split at hr
  · rename_i he
    simp at hr he
    exact .inl ⟨hr, he⟩
  · obtain ⟨m, e, hr⟩ := Outcome.bind_eq_ok hr
    refine .inr ⟨m, e, ?_⟩
    rw [← ratio_take]
    have : knn2 (dist desc) h.descs m =
        ((cands (dist desc) h.descs m).foldl (fun l c => insertCand c l) []).take 2 := rfl
    rw [← this]
    revert hr
    generalize knn2 (dist desc) h.descs m = k
    intro hr
    match k, hr with
    | [], hr => simp at hr; exact hr
    | [a], hr => simp at hr; exact hr.symm
    | a :: b :: _, hr => simp at hr; exact hr.symm

theorem matchIndexes_spec {dist : Desc → Desc → Nat} {h : Handler Desc} {detected : List Pt}
    {tracked : List Tracked} (hf : Filled h detected tracked) {p : Pt} {desc : Desc}
    {flags : List Bool} {radius : Nat} {res : List Nat}
    (hr : matchIndexes dist h p desc flags radius = .ok res) :
    (res = [] ∨ ∃ i, res = [i]) ∧
    ∀ i, res = [i] ↔
      ∃ m, mask h p flags (cellRadius radius) = .ok m ∧ m[i]? = some true ∧
        ∃ d, h.descs[i]? = some d ∧ ∀ j d', m[j]? = some true → h.descs[j]? = some d' → j ≠ i →
          10 * dist desc d < 7 * dist desc d' := by
  rcases matchIndexes_eq hr with ⟨rfl, he⟩ | ⟨m, e, rfl⟩
  · refine ⟨.inl rfl, fun i => Iff.intro (fun h => by cases h) ?_⟩
    rintro ⟨m, e, hi, d, hd, -⟩
    exfalso
    rcases he with he | he
    · obtain ⟨⟨hc, q, hq, -⟩, -⟩ := (mask_spec hf e i).1 hi
      obtain ⟨k, hk, -⟩ := kpt hf hq
      rw [he] at hk; cases hk
    · rw [he] at hd; cases hd
  · refine ⟨ratio_single _, fun i => ?_⟩
    obtain ⟨a1, a2⟩ := foldl_insert (cands (dist desc) h.descs m) [] List.Pairwise.nil
    rw [List.append_nil] at a1
    rw [ratio_spec a1 a2 (cands_nodup _ _ _)]
    constructor
    · rintro ⟨n, hn, hall⟩
      obtain ⟨h1, d, h2, rfl⟩ := mem_cands.1 hn
      exact ⟨m, e, h1, d, h2, fun j d' hj hd' hne => hall _ _ (mem_cands.2 ⟨hj, d', hd', rfl⟩) hne⟩
    · rintro ⟨m', e', h1, d, h2, hall⟩
      rw [e] at e'; injection e' with e'; subst e'
      refine ⟨_, mem_cands.2 ⟨h1, d, h2, rfl⟩, fun n j hj hne => ?_⟩
      obtain ⟨h3, d', h4, rfl⟩ := mem_cands.1 hj
      exact hall j d' h3 h4 hne

end RgbdSlam.Keypoints
