import Verif.Lemmas.FeatureMapExport
/-
Properties of feature maps over all histories of calls: ids (C06), disjointness (C07), promotion and
removal (C08, C09, C10), export (C11), deactivation (C13), outliers (C14), new candidates (C15),
termination (C17).

All statements about histories start from a new map and a new program (`Alloc.start`) and assume that
fewer than 2^64 ids were given out (`alloc.given < 2 ^ 64`); `C06_id_reuse_after_wrap` shows what
happens beyond.
-/
namespace RgbdSlam.Map

variable {P D Env : Type}

/-! ### A small concrete map for the examples: a feature is a number, it matches an equal detection. -/

def demoOps : PointOps Nat Nat Unit where
  isMoving b := b == 99
  isVisible _ _ := true
  trackIndex _ _ _ := none
  onScreen _ _ := true
  window _ det b flags _ :=
    (det.zipIdx.filter fun (d, i) => d == b && flags[i]? == some false).map (·.2) |>.take 1
  update _ _ b := .ok (b, true)
  hasDescriptor _ := true
  depthValid _ := true
  build _ d := some d
  copy b := some b
  upgrade _ b := if b = 50 then some 51 else none
  buildUpgraded b := some b
  covValid _ := true

def demo : Kind Nat Nat Unit := pointKind demoOps

/-- One successful frame. -/
def demoFrame (det : List Nat) (used : List Nat) : List (Op Nat Nat Unit) :=
  [.find () det, .update 100 () det, .stage () det used]

def demoPlane : Kind Nat Nat Unit := planeKind
  { isVisible := fun _ _ => true, projectedArea := fun _ _ => 1
    similar := fun _ b d => b == d, interArea := fun _ _ _ => 1, detectedArea := fun _ => 1
    update := fun _ _ b => .ok (b, true), build := fun _ d => some d, copy := fun b => some b
    covValid := fun _ => true }

/-! ### C06 -/

/-- No id is 0. -/
theorem C06_ids_nonzero (n : Nat) : nthId n ≠ 0 := by
  rw [nthId_eq]; omega

/-- The first 2^64 - 1 ids are pairwise different. -/
theorem C06_ids_distinct (m n : Nat) (hm : m < 2 ^ 64 - 1) (hn : n < 2 ^ 64 - 1) (h : m ≠ n) :
    nthId m ≠ nthId n := by
  rw [nthId_eq, nthId_eq, Nat.mod_eq_of_lt hm, Nat.mod_eq_of_lt hn]
  omega

/-- The bound is exact: the next id is the first one again. -/
theorem C06_id_reuse_after_wrap : nthId (2 ^ 64 - 1) = nthId 0 := by
  rw [nthId_eq, nthId_eq]

theorem step_ids {k : Kind P D Env} {op : Op P D Env} {s s' : State P} (h : Inv s)
    (hr : step k op s = .ok s') (hlt : s'.alloc.given < 2 ^ 64) {x : Nat} (hx : x ≤ s.alloc.given)
    (ha : observe s x = .absent) : observe s' x = .absent := by
  obtain ⟨h1, h2⟩ := step_keys h hr
  have ha' := observe_absent.1 ha
  cases op with
  | stage env det used =>
    simp only [step] at hr
    split at hr
    · simp at hr; subst hr; exact ha
    · rcases stage_cases hr with rfl | rfl
      · exact ha
      · have := lookup_stageFrom k env used 0 det h hx hlt
        simpa [observe, this] using ha
  | addUpgrades us =>
    simp [step] at hr; subst hr
    have := lookup_addUpgraded k us h hx hlt
    simpa [observe, this] using ha
  | find env det =>
    simp [step] at hr; subst hr
    rw [observe_core (getMatches_core k env det s.map).1 (getMatches_core k env det s.map).2.1 x]
    exact ha
  | update fuel env det =>
    simp only [step] at hr
    split at hr
    · simp at hr; subst hr; exact ha
    · simp only [Outcome.map] at hr
      obtain ⟨⟨s2, used⟩, g1, hr⟩ := Outcome.bind_eq_ok hr
      simp only [Outcome.ok.injEq] at hr
      subst hr
      unfold updateMap at g1
      split at g1
      · simp at g1; rw [← g1.1]; exact ha
      · split at g1
        · simp at g1
        · obtain ⟨⟨loc, used1, wr⟩, g2, g1⟩ := Outcome.bind_eq_ok g1
          obtain ⟨⟨stg, loc', used2⟩, g3, g1⟩ := Outcome.bind_eq_ok g1
          simp at g1
          rw [← g1.1]
          rw [observe_absent]
          obtain ⟨a1, a2, a3, a4⟩ := updateLocal_sub g2
          have hnd := h.nodup
          rw [List.nodup_append] at hnd
          have hn2 : (keys s.map.staged ++ keys loc).Nodup := by
            rw [List.nodup_append]
            refine ⟨hnd.2.1, hnd.1.sublist a1, ?_⟩
            intro x hx y hy hxy
            exact hnd.2.2 y (a1.subset hy) x hx hxy.symm
          obtain ⟨b1, b2, b3, b4, b5, b6⟩ := updateStaged_sub g3 h.keyedS (a2 h.keyedL) hn2
          simp only [List.mem_append, not_or] at ha' ⊢
          refine ⟨fun hc => ?_, fun hc => ha'.2 (b1.subset hc)⟩
          rcases b5 _ hc with hc | hc
          · exact ha'.2 hc
          · exact ha'.1 (a1.subset hc)
  | noTracking =>
    simp [step] at hr; subst hr
    unfold updateNoTracking
    split
    · exact ha
    · rw [observe_absent]
      exact fun hc => ha' (((missLocal_sub k _).1.append (missStaged_sub k _).1).subset hc)
  | outliers ms =>
    simp [step] at hr; subst hr
    rw [observe_core (markOutliers_core k.type ms s.map).1 (markOutliers_core k.type ms s.map).2.1 x]
    exact ha
  | takeUpgrades env =>
    simp [step] at hr; subst hr
    rw [observe_absent]
    exact fun hc => ha' (((keys_sublist (takeUpgraded_sub k env _)).append
      (keys_sublist (takeUpgraded_sub k env _))).subset hc)
  | reset =>
    simp [step] at hr; subst hr
    unfold reset
    split
    · exact ha
    · simp [observe, lookup]
  | deactivate => simp [step] at hr; subst hr; exact ha
  | foreignIds n => simp [step] at hr; subst hr; exact ha
  | rehash a b =>
    simp [step] at hr; subst hr
    rw [observe_absent]
    exact fun hc => ha' ((((a.perm s.map.localMap).map (fun q : Nat × Feat P => q.1)).append
      ((b.perm s.map.staged).map (fun q : Nat × Feat P => q.1))).mem_iff.1 hc)

theorem run_ids {k : Kind P D Env} {ops : List (Op P D Env)} {s s' : State P} (h : Inv s)
    (hr : run k ops s = .ok s') (hlt : s'.alloc.given < 2 ^ 64) {x : Nat} (hx : x ≤ s.alloc.given)
    (ha : observe s x = .absent) : observe s' x = .absent := by
  induction ops generalizing s with
  | nil => simp [run] at hr; exact hr ▸ ha
  | cons op ops ih =>
    simp only [run] at hr
    obtain ⟨s1, h1, hr⟩ := Outcome.bind_eq_ok hr
    have hlt1 := Nat.lt_of_le_of_lt (given_run hr) hlt
    exact ih (inv_step h h1 hlt1) hr (Nat.le_trans hx (given_step h1)) (step_ids h h1 hlt1 hx ha)

/-- An id is never used again: a feature that was once in the map (or in the exported file) and is
not in the map any more never comes back, and no new feature gets its id, whatever happens. -/
theorem C06_ids_never_reused (k : Kind P D Env) (ops0 ops1 ops2 : List (Op P D Env))
    (s0 s1 s2 : State P) (x : Nat)
    (h0 : run k ops0 (State.init Alloc.start) = .ok s0) (h1 : run k ops1 s0 = .ok s1)
    (h2 : run k ops2 s1 = .ok s2) (hlt : s2.alloc.given < 2 ^ 64)
    (hx : x ∈ (features s0 ++ s0.written).map (·.id)) (ha : place s1 x = .absent) :
    place s2 x = .absent := by
  have l1 := Nat.lt_of_le_of_lt (given_run h2) hlt
  have l0 := Nat.lt_of_le_of_lt (given_run h1) l1
  have i0 := inv_run inv_init h0 l0
  have i1 := inv_run i0 h1 l1
  have i2 := inv_run i1 h2 hlt
  have hle : x ≤ s0.alloc.given := by
    simp only [features, List.map_append, List.map_map, List.mem_append] at hx
    have e1 : List.map ((fun x : Feat P => x.id) ∘ fun x : Nat × Feat P => x.2) s0.map.localMap =
        keys s0.map.localMap := (keys_eq_ids i0.keyedL).symm
    have e2 : List.map ((fun x : Feat P => x.id) ∘ fun x : Nat × Feat P => x.2) s0.map.staged =
        keys s0.map.staged := (keys_eq_ids i0.keyedS).symm
    rw [e1, e2] at hx
    rcases hx with hx | hx
    · exact (i0.range x (List.mem_append.2 hx)).2
    · exact (i0.wrange x hx).2
  rw [place_eq i1] at ha
  rw [place_eq i2, run_ids i1 h2 hlt (Nat.le_trans hle (given_run h1)) (by
    cases ho : observe s1 x <;> simp_all [Status.place])]
  rfl

/-- non-vacuity: feature 1 is staged, dropped after a miss, and its detection comes back as 2 -/
example : ((run demo [.find () [7], .stage () [7] []] (State.init Alloc.start)).holds fun s0 =>
    (run demo [.noTracking] s0).holds fun s1 => (run demo (demoFrame [7] []) s1).holds fun s2 =>
    place s0 1 == .staged && place s1 1 == .absent && place s2 1 == .absent && place s2 2 == .staged)
    = true := by decide +kernel

/-! ### C07 -/

/-- After any history every feature is stored under its own id, no id is 0, and no id occurs twice,
neither in one store nor in both. -/
theorem C07_keyed_and_disjoint (k : Kind P D Env) (ops : List (Op P D Env)) (s : State P)
    (h : run k ops (State.init Alloc.start) = .ok s) (hlt : s.alloc.given < 2 ^ 64) :
    (∀ p ∈ s.map.localMap ++ s.map.staged, p.1 = p.2.id ∧ p.2.id ≠ 0) ∧
    ((features s).map (·.id)).Nodup := by
  have hi := inv_run inv_init h hlt
  have key : ∀ p ∈ s.map.localMap ++ s.map.staged, p.1 = p.2.id := by
    intro p hp
    rcases List.mem_append.1 hp with hp | hp
    · exact hi.keyedL p hp
    · exact hi.keyedS p hp
  refine ⟨fun p hp => ⟨key p hp, ?_⟩, ?_⟩
  · rw [← key p hp]
    have hm : p.1 ∈ keys s.map.localMap ++ keys s.map.staged := by
      rw [← keys_append]; exact List.mem_map_of_mem hp
    have := (hi.range _ hm).1
    omega
  · have e : (features s).map (·.id) = keys s.map.localMap ++ keys s.map.staged := by
      rw [keys_eq_ids hi.keyedL, keys_eq_ids hi.keyedS]
      simp [features, Function.comp_def]
    rw [e]; exact hi.nodup

/-- non-vacuity: a history with one map feature and one candidate -/
example : ((run demo (demoFrame [7] [] ++ demoFrame [7] [0] ++ demoFrame [7] [0] ++
      demoFrame [7] [0] ++ demoFrame [8] []) (State.init Alloc.start)).holds fun s =>
    s.alloc.given < 2 ^ 64 && s.map.localMap.map (·.1) == [1] && s.map.staged.map (·.1) == [2])
    = true := by decide +kernel

/-! ### C08, C09, C10: the life of a feature -/

/-- A new candidate of any feature type that follows a counting rule. -/
theorem life {k : Kind P D Env} {r : Rule} (hk : Follows k r) {U A : List Bool → Prop}
    (hd : Decides r U A) {n : Nat} (hl : LosesAt r n)
    {ops0 ops : List (Op P D Env)} {op : Op P D Env} {s s0 s1 : State P} {x : Nat}
    (h0 : run k ops0 (State.init Alloc.start) = .ok s) (hop : step k op s = .ok s0)
    (hnew : place s x = .absent) (hstg : place s0 x = .staged)
    (h1 : run k ops s0 = .ok s1) (hkeep : ∀ o ∈ ops, Keeps k o) (hlt : s1.alloc.given < 2 ^ 64) :
    (place s1 x = .staged ↔ U (events k ops s0 x)) ∧
    (place s1 x = .mapped ↔
      ∃ m, PromAt U A m (events k ops s0 x) ∧ ¬ MissesInARow n ((events k ops s0 x).drop m)) := by
  have l0 := Nat.lt_of_le_of_lt (given_run h1) hlt
  have l := Nat.lt_of_le_of_lt (given_step hop) l0
  have i := inv_run inv_init h0 l
  have i0 := inv_step i hop l0
  have i1 := inv_run i0 h1 hlt
  have w : Waiting r s := by
    clear hop hnew l i
    have : Waiting r (State.init Alloc.start : State P) := by
      intro p hp; simp [State.init, FMap.empty] at hp
    revert this h0
    generalize (State.init Alloc.start : State P) = t
    intro h0 ht
    induction ops0 generalizing t with
    | nil => simp [run] at h0; exact h0 ▸ ht
    | cons o os ih =>
      simp only [run] at h0
      obtain ⟨t1, e1, e2⟩ := Outcome.bind_eq_ok h0
      exact ih _ e2 (waiting_step hk ht e1)
  have w0 := waiting_step hk w hop
  rw [place_eq i] at hnew
  rw [place_eq i0] at hstg
  have ho : observe s x = .absent := by cases ho : observe s x <;> simp_all [Status.place]
  have ho0 : observe s0 x = .staged 0 0 := by
    cases ho0 : observe s0 x with
    | absent => rw [ho0] at hstg; cases hstg
    | mapped m => rw [ho0] at hstg; cases hstg
    | staged a b =>
      obtain ⟨e1, e2⟩ := (observe_new i hop ho).1 a b ho0
      rw [e1, e2]
  have hx : x ≤ s0.alloc.given := by
    have : x ∈ keys s0.map.localMap ++ keys s0.map.staged := by
      apply Classical.byContradiction
      intro hc
      rw [← observe_absent, ho0] at hc
      cases hc
    exact (i0.range x this).2
  rw [place_eq i1, observe_run hk i0 w0 hkeep h1 hlt hx, ho0]
  exact place_of_events hd hl _

/-- C08, 3D points: a candidate created by the call `op` is, after any further history (without
`reset`), a candidate exactly if matches minus misses stayed 1 or 2, and a map point exactly if
matches minus misses reached 3 before 0 (and it was not lost since, see C10); in all other cases it is
gone.  Hypothesis: building the map point from the candidate does not throw. -/
theorem C08_point_life (o : PointOps P D Env) (hcopy : ∀ b, o.copy b ≠ none)
    (ops0 ops : List (Op P D Env)) (op : Op P D Env) (s s0 s1 : State P) (x : Nat)
    (h0 : run (pointKind o) ops0 (State.init Alloc.start) = .ok s)
    (hop : step (pointKind o) op s = .ok s0)
    (hnew : place s x = .absent) (hstg : place s0 x = .staged)
    (h1 : run (pointKind o) ops s0 = .ok s1) (hkeep : ∀ o' ∈ ops, Keeps (pointKind o) o')
    (hlt : s1.alloc.given < 2 ^ 64) :
    (place s1 x = .staged ↔ PointUndecided (events (pointKind o) ops s0 x)) ∧
    (place s1 x = .mapped ↔ ∃ m, PointPromotedAt m (events (pointKind o) ops s0 x) ∧
      ¬ MissesInARow 11 ((events (pointKind o) ops s0 x).drop m)) :=
  life (point_follows o hcopy) point_decides point_loses h0 hop hnew hstg h1 hkeep hlt

/-- C08 for 2D points, as long as they are not upgraded to 3D points. -/
theorem C08_point2d_life (o : PointOps P D Env) (hcopy : ∀ b, o.copy b ≠ none)
    (ops0 ops : List (Op P D Env)) (op : Op P D Env) (s s0 s1 : State P) (x : Nat)
    (h0 : run (point2dKind o) ops0 (State.init Alloc.start) = .ok s)
    (hop : step (point2dKind o) op s = .ok s0)
    (hnew : place s x = .absent) (hstg : place s0 x = .staged)
    (h1 : run (point2dKind o) ops s0 = .ok s1) (hkeep : ∀ o' ∈ ops, Keeps (point2dKind o) o')
    (hlt : s1.alloc.given < 2 ^ 64) :
    (place s1 x = .staged ↔ PointUndecided (events (point2dKind o) ops s0 x)) ∧
    (place s1 x = .mapped ↔ ∃ m, PointPromotedAt m (events (point2dKind o) ops s0 x) ∧
      ¬ MissesInARow 11 ((events (point2dKind o) ops s0 x).drop m)) :=
  life (point2d_follows o hcopy) point_decides point_loses h0 hop hnew hstg h1 hkeep hlt

/-- C09, planes: a candidate stays one while matches minus misses is below 4 and it is never missed
twice in a row; it becomes a map plane when matches minus misses reaches 4. -/
theorem C09_plane_life (o : PlaneOps P D Env) (hcopy : ∀ b, o.copy b ≠ none)
    (ops0 ops : List (Op P D Env)) (op : Op P D Env) (s s0 s1 : State P) (x : Nat)
    (h0 : run (planeKind o) ops0 (State.init Alloc.start) = .ok s)
    (hop : step (planeKind o) op s = .ok s0)
    (hnew : place s x = .absent) (hstg : place s0 x = .staged)
    (h1 : run (planeKind o) ops s0 = .ok s1) (hkeep : ∀ o' ∈ ops, Keeps (planeKind o) o')
    (hlt : s1.alloc.given < 2 ^ 64) :
    (place s1 x = .staged ↔ PlaneUndecided (events (planeKind o) ops s0 x)) ∧
    (place s1 x = .mapped ↔ ∃ m, PlanePromotedAt m (events (planeKind o) ops s0 x) ∧
      ¬ MissesInARow 10 ((events (planeKind o) ops s0 x).drop m)) :=
  life (plane_follows o hcopy) plane_decides plane_loses h0 hop hnew hstg h1 hkeep hlt

/-- non-vacuity for C08: staged, then match, miss, ... : match, match, match promotes; the events are
the expected ones and the point is mapped. -/
example :
    let ops := demoFrame [7] [0] ++ [.noTracking] ++ demoFrame [7] [0] ++ demoFrame [7] [0]
    ((run demo [.find () [7]] (State.init Alloc.start)).holds fun s =>
    (step demo (.stage () [7] []) s).holds fun s0 =>
    (run demo (demoFrame [7] [0] ++ ops) s0).holds fun s1 =>
    place s 1 == .absent && place s0 1 == .staged && place s1 1 == .mapped &&
    events demo (demoFrame [7] [0] ++ ops) s0 1 == [true, true, false, true, true]) = true := by
  decide +kernel

/-- non-vacuity for C09 (the plane must not be detection number 0, see C18) -/
example :
    let frame := demoFrame [3, 7] [0, 1]
    let ops := frame ++ [.noTracking] ++ frame ++ frame ++ frame
    ((run demoPlane [.find () [3, 7]] (State.init Alloc.start)).holds fun s =>
    (step demoPlane (.stage () [3, 7] [0]) s).holds fun s0 =>
    (run demoPlane ops s0).holds fun s1 => (run demoPlane frame s1).holds fun s2 =>
    place s 1 == .absent && place s0 1 == .staged && place s1 1 == .staged && place s2 1 == .mapped &&
    events demoPlane ops s0 1 == [true, false, true, true, true]) = true := by
  decide +kernel

/-- A map feature that was just matched, or just entered the map. -/
theorem life_mapped {k : Kind P D Env} {r : Rule} (hk : Follows k r) {n : Nat} (hl : LosesAt r n)
    {ops0 ops : List (Op P D Env)} {op : Op P D Env} {s s0 s1 : State P} {x : Nat}
    (h0 : run k ops0 (State.init Alloc.start) = .ok s) (hop : step k op s = .ok s0)
    (hkeep0 : Keeps k op)
    (hnew : eventOf k op s x = some true ∨ place s x ≠ .mapped) (hmap : place s0 x = .mapped)
    (h1 : run k ops s0 = .ok s1) (hkeep : ∀ o ∈ ops, Keeps k o) (hlt : s1.alloc.given < 2 ^ 64) :
    (place s1 x = .mapped ↔ ¬ MissesInARow n (events k ops s0 x)) ∧ place s1 x ≠ .staged := by
  have l0 := Nat.lt_of_le_of_lt (given_run h1) hlt
  have l := Nat.lt_of_le_of_lt (given_step hop) l0
  have i := inv_run inv_init h0 l
  have i0 := inv_step i hop l0
  have i1 := inv_run i0 h1 hlt
  have w : Waiting r s := by
    clear hop hnew l i
    have : Waiting r (State.init Alloc.start : State P) := by
      intro p hp; simp [State.init, FMap.empty] at hp
    revert this h0
    generalize (State.init Alloc.start : State P) = t
    intro h0 ht
    induction ops0 generalizing t with
    | nil => simp [run] at h0; exact h0 ▸ ht
    | cons o os ih =>
      simp only [run] at h0
      obtain ⟨t1, e1, e2⟩ := Outcome.bind_eq_ok h0
      exact ih _ e2 (waiting_step hk ht e1)
  have w0 := waiting_step hk w hop
  rw [place_eq i0] at hmap
  have hm0 : ∃ m, observe s0 x = .mapped m := by
    cases ho0 : observe s0 x with
    | absent => rw [ho0] at hmap; cases hmap
    | staged a b => rw [ho0] at hmap; cases hmap
    | mapped m => exact ⟨m, rfl⟩
  obtain ⟨m, hm0⟩ := hm0
  have ho0 : observe s0 x = .mapped 0 := by
    cases ho : observe s x with
    | absent => rw [hm0, (observe_new i hop ho).2 m hm0]
    | staged a b =>
      have hx : x ≤ s.alloc.given := by
        have : x ∈ keys s.map.localMap ++ keys s.map.staged := by
          apply Classical.byContradiction
          intro hc
          rw [← observe_absent, ho] at hc
          cases hc
        exact (i.range x this).2
      have hst := observe_step hk i w hkeep0 hop l0 hx
      rw [ho] at hst
      cases he : eventOf k op s x with
      | none => rw [he] at hst; simp [hm0] at hst
      | some e =>
        rw [he] at hst
        simp only [Option.toList_some, List.foldl_cons, List.foldl_nil] at hst
        have hsn : ∀ a b, stagedNext r a b = .mapped m → m = 0 := by
          intro a b hs
          unfold stagedNext at hs
          split at hs
          · injection hs with hs; exact hs.symm
          · split at hs <;> cases hs
        rw [hm0] at hst
        cases e <;> simp only [lifeStep] at hst <;> rw [hm0, hsn _ _ hst.symm]
    | mapped a =>
      rcases hnew with he | he
      · have hx : x ≤ s.alloc.given := by
          have : x ∈ keys s.map.localMap ++ keys s.map.staged := by
            apply Classical.byContradiction
            intro hc
            rw [← observe_absent, ho] at hc
            cases hc
          exact (i.range x this).2
        have hst := observe_step hk i w hkeep0 hop l0 hx
        rw [ho, he] at hst
        simp only [Option.toList_some, List.foldl_cons, List.foldl_nil, lifeStep] at hst
        split at hst
        · rw [hm0] at hst; cases hst
        · exact hst
      · rw [place_eq i, ho] at he; exact absurd rfl he
  have hx : x ≤ s0.alloc.given := by
    have : x ∈ keys s0.map.localMap ++ keys s0.map.staged := by
      apply Classical.byContradiction
      intro hc
      rw [← observe_absent, ho0] at hc
      cases hc
    exact (i0.range x this).2
  rw [place_eq i1, observe_run hk i0 w0 hkeep h1 hlt hx, ho0]
  by_cases hmiss : MissesInARow n (events k ops s0 x)
  · rw [(foldl_mapped hl _).1 hmiss]; simp [Status.place, hmiss]
  · rw [((foldl_mapped hl _).2 hmiss).1]; simp [Status.place, hmiss]

/-- C10, points: a map point that was just matched (or just entered the map, by promotion or as an
upgraded 2D point) is still in the map after any further history exactly if it was never missed
eleven times in a row; so it is removed exactly with the eleventh miss. -/
theorem C10_point_lost_at_eleventh_miss (o : PointOps P D Env) (hcopy : ∀ b, o.copy b ≠ none)
    (ops0 ops : List (Op P D Env)) (op : Op P D Env) (s s0 s1 : State P) (x : Nat)
    (h0 : run (pointKind o) ops0 (State.init Alloc.start) = .ok s)
    (hop : step (pointKind o) op s = .ok s0) (hkeep0 : Keeps (pointKind o) op)
    (hnew : eventOf (pointKind o) op s x = some true ∨ place s x ≠ .mapped)
    (hmap : place s0 x = .mapped)
    (h1 : run (pointKind o) ops s0 = .ok s1) (hkeep : ∀ o' ∈ ops, Keeps (pointKind o) o')
    (hlt : s1.alloc.given < 2 ^ 64) :
    (place s1 x = .mapped ↔ ¬ MissesInARow 11 (events (pointKind o) ops s0 x)) ∧
    place s1 x ≠ .staged :=
  life_mapped (point_follows o hcopy) point_loses h0 hop hkeep0 hnew hmap h1 hkeep hlt

/-- C10, 2D points (as long as they are not upgraded). -/
theorem C10_point2d_lost_at_eleventh_miss (o : PointOps P D Env) (hcopy : ∀ b, o.copy b ≠ none)
    (ops0 ops : List (Op P D Env)) (op : Op P D Env) (s s0 s1 : State P) (x : Nat)
    (h0 : run (point2dKind o) ops0 (State.init Alloc.start) = .ok s)
    (hop : step (point2dKind o) op s = .ok s0) (hkeep0 : Keeps (point2dKind o) op)
    (hnew : eventOf (point2dKind o) op s x = some true ∨ place s x ≠ .mapped)
    (hmap : place s0 x = .mapped)
    (h1 : run (point2dKind o) ops s0 = .ok s1) (hkeep : ∀ o' ∈ ops, Keeps (point2dKind o) o')
    (hlt : s1.alloc.given < 2 ^ 64) :
    (place s1 x = .mapped ↔ ¬ MissesInARow 11 (events (point2dKind o) ops s0 x)) ∧
    place s1 x ≠ .staged :=
  life_mapped (point2d_follows o hcopy) point_loses h0 hop hkeep0 hnew hmap h1 hkeep hlt

/-- C10, planes: tenth miss in a row. -/
theorem C10_plane_lost_at_tenth_miss (o : PlaneOps P D Env) (hcopy : ∀ b, o.copy b ≠ none)
    (ops0 ops : List (Op P D Env)) (op : Op P D Env) (s s0 s1 : State P) (x : Nat)
    (h0 : run (planeKind o) ops0 (State.init Alloc.start) = .ok s)
    (hop : step (planeKind o) op s = .ok s0) (hkeep0 : Keeps (planeKind o) op)
    (hnew : eventOf (planeKind o) op s x = some true ∨ place s x ≠ .mapped)
    (hmap : place s0 x = .mapped)
    (h1 : run (planeKind o) ops s0 = .ok s1) (hkeep : ∀ o' ∈ ops, Keeps (planeKind o) o')
    (hlt : s1.alloc.given < 2 ^ 64) :
    (place s1 x = .mapped ↔ ¬ MissesInARow 10 (events (planeKind o) ops s0 x)) ∧
    place s1 x ≠ .staged :=
  life_mapped (plane_follows o hcopy) plane_loses h0 hop hkeep0 hnew hmap h1 hkeep hlt

/-- non-vacuity: an upgraded point enters, survives ten misses and is removed with the eleventh -/
example : ((step demo (.addUpgrades [⟨.point, 5, []⟩]) (State.init Alloc.start)).holds fun s0 =>
    (run demo (List.replicate 10 .noTracking) s0).holds fun s1 =>
    (step demo .noTracking s1).holds fun s2 =>
    place s0 1 == .mapped && place s1 1 == .mapped && place s2 1 == .absent &&
    s2.written.map (·.id) == [1]) = true := by decide +kernel

/-! ### C11 -/

/-- At any moment, if the map is destroyed now, no feature was sent twice to the map writer. -/
theorem C11_exported_at_most_once (k : Kind P D Env) (ops : List (Op P D Env)) (s : State P)
    (h : run k ops (State.init Alloc.start) = .ok s) (hlt : s.alloc.given < 2 ^ 64) :
    ((exported s).map (·.id)).Nodup :=
  exported_nodup (inv_run inv_init h hlt)

/-- Only features that were map features before the call, are lost and are no longer in the map are
written, and nothing written is ever taken back. -/
theorem C11_only_lost_features_written (k : Kind P D Env) (ops : List (Op P D Env)) (op : Op P D Env)
    (s s' : State P) (h : run k ops (State.init Alloc.start) = .ok s)
    (hop : step k op s = .ok s') (hlt : s'.alloc.given < 2 ^ 64) :
    ∃ w, s'.written = s.written ++ w ∧
      ∀ g ∈ w, k.isLost g = true ∧ place s g.id = .mapped ∧ place s' g.id = .absent := by
  have l := Nat.lt_of_le_of_lt (given_step hop) hlt
  have i := inv_run inv_init h l
  have i' := inv_step i hop hlt
  obtain ⟨w, hw, hall⟩ := step_written i hop
  refine ⟨w, hw, fun g hg => ?_⟩
  obtain ⟨c1, c2, c3⟩ := hall g hg
  refine ⟨c1, ?_, ?_⟩
  · rw [place_eq i]
    rw [← lookup_isSome, Option.isSome_iff_exists] at c2
    obtain ⟨f, hf⟩ := c2
    simp [observe, hf, Status.place]
  · have hab : g.id ∉ keys s'.map.localMap ++ keys s'.map.staged :=
      i'.wfresh g.id (by rw [hw]; exact List.mem_map_of_mem (List.mem_append.2 (.inr hg)))
    rw [place_eq i', observe_absent.2 hab]
    rfl

/-- Every map feature is exported exactly once: a feature that is in the map at some time is, in any
later state of a map that is still active, exported exactly once if the map is destroyed there,
unless it left as a moving feature (or the history contains `reset` or the extraction of upgrades). -/
theorem C11_exported_exactly_once (k : Kind P D Env) (ops1 ops2 : List (Op P D Env))
    (s1 s2 : State P) (x : Nat) (h1 : run k ops1 (State.init Alloc.start) = .ok s1)
    (hx : place s1 x = .mapped) (h2 : run k ops2 s1 = .ok s2) (hkeep : ∀ o ∈ ops2, Keeps k o)
    (hact : s2.map.active = true) (hlt : s2.alloc.given < 2 ^ 64) :
    ((exported s2).map (·.id)).count x = 1 ∨ EverLeftMoving k ops2 s1 x := by
  have l1 := Nat.lt_of_le_of_lt (given_run h2) hlt
  have i1 := inv_run inv_init h1 l1
  have i2 := inv_run i1 h2 hlt
  have hmem : x ∈ keys s1.map.localMap := by
    rw [place_eq i1] at hx
    unfold observe at hx
    rw [← lookup_isSome]
    cases hl : lookup x s1.map.localMap with
    | some f => rfl
    | none =>
      rw [hl] at hx
      simp only at hx
      cases hs : lookup x s1.map.staged <;> rw [hs] at hx <;> cases hx
  have hnd := exported_nodup i2
  have count1 : x ∈ (exported s2).map (·.id) → ((exported s2).map (·.id)).count x = 1 := by
    intro hm
    have a := List.count_pos_iff.2 hm
    have b := List.nodup_iff_count.1 hnd x
    omega
  rcases run_exported i1 hkeep h2 hlt hmem with hc | ⟨g, hg, hid⟩ | hc
  · left
    apply count1
    rw [mem_keys] at hc
    obtain ⟨f, hf⟩ := hc
    have hid := i2.keyedL _ hf
    simp only [exported, destroyed, hact, Bool.not_true, Bool.false_eq_true, if_false, List.map_append,
      List.mem_append]
    right
    rw [List.map_map]
    exact List.mem_map.2 ⟨(x, f), hf, hid.symm⟩
  · left
    apply count1
    simp only [exported, List.map_append, List.mem_append]
    left
    exact List.mem_map.2 ⟨g, hg, hid⟩
  · exact .inr hc

/-- For planes, which never move, the exception disappears. -/
theorem C11_plane_exported_exactly_once (o : PlaneOps P D Env) (ops1 ops2 : List (Op P D Env))
    (s1 s2 : State P) (x : Nat) (h1 : run (planeKind o) ops1 (State.init Alloc.start) = .ok s1)
    (hx : place s1 x = .mapped) (h2 : run (planeKind o) ops2 s1 = .ok s2)
    (hkeep : ∀ o' ∈ ops2, Keeps (planeKind o) o') (hact : s2.map.active = true)
    (hlt : s2.alloc.given < 2 ^ 64) :
    ((exported s2).map (·.id)).count x = 1 := by
  rcases C11_exported_exactly_once (planeKind o) ops1 ops2 s1 s2 x h1 hx h2 hkeep hact hlt with h | h
  · exact h
  · exfalso
    clear h2 hkeep hact hlt hx h1
    induction ops2 generalizing s1 with
    | nil => exact h
    | cons op ops ih =>
      simp only [EverLeftMoving] at h
      rcases h with ⟨fuel, env, det, f, -, -, hm⟩ | h
      · simp [planeKind] at hm
      · cases hst : step (planeKind o) op s1 with
        | ok s' => rw [hst] at h; exact ih s' h
        | _ => rw [hst] at h; exact h

/-- The feature that is moving when an update loses it is in no export. -/
example : ((step demo (.addUpgrades [⟨.point, 99, []⟩, ⟨.point, 5, []⟩])
      (State.init Alloc.start)).holds fun s1 =>
    (run demo (List.replicate 11 (.update 100 () [])) s1).holds fun s2 =>
    place s1 1 == .mapped && place s1 2 == .mapped && (exported s2).map (·.id) == [2]) = true := by
  decide +kernel

/-! ### C13 -/

/-- Calls that `deactivate` is expected to block. -/
def Blocked : Op P D Env → Prop
  | .takeUpgrades _ | .addUpgrades _ | .foreignIds _ | .rehash _ _ => False
  | _ => True

/-- A deactivated map: matching, updating, staging, outliers, reset do not change anything, nothing is
written, nothing is matched, and nothing is written at destruction. -/
theorem C13_deactivated_unchanged (k : Kind P D Env) (ops : List (Op P D Env)) (s s' : State P)
    (ha : s.map.active = false) (hops : ∀ o ∈ ops, Blocked o) (h : run k ops s = .ok s') :
    s' = s := by
  induction ops generalizing s with
  | nil => simp [run] at h; exact h.symm
  | cons op ops ih =>
    simp only [run] at h
    obtain ⟨s1, h1, h2⟩ := Outcome.bind_eq_ok h
    clear h
    have hop := hops op List.mem_cons_self
    have e : s1 = s := by
      cases op with
      | find env det =>
        simp [step, getMatches, matchOnce, ha] at h1
        rw [← h1]
      | update fuel env det => simpa [step, updateMap, ha, Outcome.map, Outcome.bind] using h1.symm
      | noTracking => simpa [step, updateNoTracking, ha] using h1.symm
      | stage env det used => simpa [step, stage, ha] using h1.symm
      | outliers ms =>
        simp only [step, Outcome.ok.injEq] at h1
        rw [← h1]
        have : ∀ (t : FType) (ms : List Match), markOutliers t ms s.map = s.map := by
          intro t ms
          induction ms with
          | nil => rfl
          | cons o os ih => simp [markOutliers, markUnmatched, ha, ih]
        rw [this]
      | reset => simpa [step, reset, ha] using h1.symm
      | deactivate =>
        simp only [step, deactivate, Outcome.ok.injEq] at h1
        rw [← h1, ← ha]
      | takeUpgrades env => exact absurd hop id
      | addUpgrades us => exact absurd hop id
      | foreignIds n => exact absurd hop id
      | rehash a b => exact absurd hop id
    subst e
    exact ih s1 ha (fun o ho => hops o (List.mem_cons_of_mem _ ho)) h2

/-- It gives no match and exports nothing. -/
theorem C13_deactivated_silent (k : Kind P D Env) (env : Env) (det : List D) (m : FMap P)
    (ha : m.active = false) : (getMatches k env det m).2 = [] ∧ destroyed m = [] := by
  constructor
  · simp only [getMatches, matchOnce, ha, Bool.not_false, if_true]
    split <;> rfl
  · simp [destroyed, ha]

/-- The upgrade calls are not blocked: an upgraded feature is added to a deactivated map. -/
theorem C13_upgrades_not_blocked : ∃ (k : Kind Nat Nat Unit) (s s' : State Nat),
    s.map.active = false ∧ step k (.addUpgrades [⟨.point, 5, []⟩]) s = .ok s' ∧ s' ≠ s :=
  ⟨demo, ⟨⟨false, [], [], []⟩, Alloc.start, []⟩, _, rfl, rfl, by decide⟩

example : ((run demo (demoFrame [7] [] ++ [.deactivate]) (State.init Alloc.start)).holds fun s =>
    s.map.active == false && (features s).map (·.id) == [1] &&
    (run demo (demoFrame [7] [] ++ [.noTracking, .reset]) s).holds fun s' => s' == s) = true := by
  decide +kernel

/-! ### C14 -/

/-- Marking outliers removes exactly the listed matches of this map's features; features, counters,
ids and all other matches stay.  Flags of detections not listed stay too. -/
theorem C14_outliers_only_undo_their_match (k : Kind P D Env) (ops : List (Op P D Env))
    (os : List Match) (s s' : State P) (h : run k ops (State.init Alloc.start) = .ok s)
    (hlt : s.alloc.given < 2 ^ 64) (ha : s.map.active = true)
    (h' : step k (.outliers os) s = .ok s') :
    s'.map.localMap = withoutMatches k.type os s.map.localMap ∧
    s'.map.staged = withoutMatches k.type os s.map.staged ∧
    s'.written = s.written ∧ s'.alloc = s.alloc ∧
    s'.map.flags.length = s.map.flags.length ∧
    ∀ i, s'.map.flags[i]? = s.map.flags[i]? ∨
      ((∃ o ∈ os, o.type = k.type ∧ o.detected = i) ∧
        s'.map.flags[i]? = (s.map.flags[i]?).map fun _ => false) := by
  have i := inv_run inv_init h hlt
  simp [step] at h'; subst h'
  obtain ⟨a1, a2, a3, a4, a5⟩ := markOutliers_spec (t := k.type) (os := os) i.tidy ha
  exact ⟨a1, a2, rfl, rfl, a4, a5⟩

/-- non-vacuity: two candidates matched, one match rejected -/
example : ((run demo (demoFrame [7, 8] [] ++ [.find () [7, 8]]) (State.init Alloc.start)).holds fun s =>
    s.map.staged.map (fun p => (p.1, p.2.matched)) == [(1, [0]), (2, [1])] &&
    (step demo (.outliers [⟨.plane, 2, 1⟩, ⟨.point, 1, 0⟩, ⟨.point, 9, 1⟩]) s).holds fun s' =>
    s'.map.staged.map (fun p => (p.1, p.2.matched)) == [(1, []), (2, [1])] &&
    s'.map.flags == [false, true]) = true := by decide +kernel

/-! ### C15 -/

/-- Staging appends, in the order of detection, one new candidate for each detected feature that was
not used, is admissible and can be built, and nothing else; the new ids are larger than all ids given
before, the counters are zero, and the rest of the map is unchanged. -/
theorem C15_unused_detections_staged_once (k : Kind P D Env) (ops : List (Op P D Env)) (env : Env)
    (det : List D) (used : List Nat) (s s' : State P)
    (h : run k ops (State.init Alloc.start) = .ok s) (ha : s.map.active = true)
    (hc : k.covValid env = true) (h' : step k (.stage env det used) s = .ok s')
    (hlt : s'.alloc.given < 2 ^ 64) :
    ∃ news : List (Feat P),
      s'.map = { s.map with staged := s.map.staged ++ news.map fun f => (f.id, f) } ∧
      s'.written = s.written ∧
      news.map (·.body) = wanted k env used 0 det ∧
      (∀ f ∈ news, (∀ g ∈ features s, g.id < f.id) ∧ f.failed = 0 ∧ f.succ = 0 ∧ f.matched = []) ∧
      (news.map (·.id)).Pairwise (· < ·) := by
  have l := Nat.lt_of_le_of_lt (given_step h') hlt
  have i := inv_run inv_init h l
  simp only [step] at h'
  have e : s' = stageFrom k env used 0 det s := by
    unfold stage at h'
    simp only [ha, hc, Bool.not_true, Bool.false_eq_true, if_false] at h'
    by_cases hl : det.length ≠ s.map.flags.length
    · rw [if_pos hl] at h'; cases h'
    · rw [if_neg hl] at h'; simpa using h'.symm
  subst e
  obtain ⟨news, e1, e2, e3, e4, e5⟩ := stageFrom_spec i hlt
  refine ⟨news, e1, e2, e3, fun f hf => ⟨fun g hg => ?_, (e4 f hf).2⟩, e5⟩
  have h1 := (e4 f hf).1
  have : g.id ≤ s.alloc.given := by
    simp only [features, List.mem_append, List.mem_map] at hg
    rcases hg with ⟨p, hp, rfl⟩ | ⟨p, hp, rfl⟩
    · rw [← i.keyedL p hp]
      exact (i.range _ (List.mem_append.2 (.inl (List.mem_map_of_mem hp)))).2
    · rw [← i.keyedS p hp]
      exact (i.range _ (List.mem_append.2 (.inr (List.mem_map_of_mem hp)))).2
  omega

/-- non-vacuity: detection 1 is used, 0 and 2 are staged -/
example : ((run demo [.find () [7, 8, 9]] (State.init Alloc.start)).holds fun s =>
    (step demo (.stage () [7, 8, 9] [1]) s).holds fun s' =>
    s'.map.staged.map (fun p => (p.1, p.2.body)) == [(1, 7), (2, 9)] &&
    wanted demo () [1] 0 [7, 8, 9] == [7, 9]) = true := by decide +kernel

/-! ### C17 -/

theorem bind_fuel {α β : Type _} {x : Outcome α} {f : α → Outcome β} (hx : x ≠ .outOfFuel)
    (hf : ∀ a, f a ≠ .outOfFuel) : x.bind f ≠ .outOfFuel := by
  cases x <;> simp_all [Outcome.bind]

/-- Hypothesis: `update_with_match` returns, throws, exits or terminates (it contains no loop). -/
def CallsReturn (k : Kind P D Env) : Prop := ∀ env d f, k.updateWith env d f ≠ .outOfFuel

theorem applyMatches_returns {k : Kind P D Env} (hk : CallsReturn k) (env : Env) (det : List D)
    (all : Bool) (is : List Nat) (f : Feat P) : applyMatches k env det all is f ≠ .outOfFuel := by
  induction is generalizing f with
  | nil => simp [applyMatches]
  | cons i is ih =>
    simp only [applyMatches]
    split
    · simp
    · rename_i d hd
      refine bind_fuel ?_ fun a => bind_fuel (ih _) fun b => by simp
      have := hk env d f
      cases h : k.updateWith env d f <;> simp_all [Outcome.noexcept]

theorem updateLocal_returns {k : Kind P D Env} (hk : CallsReturn k) (env : Env) (det : List D)
    (l : Store P) : updateLocal k env det l ≠ .outOfFuel := by
  induction l with
  | nil => simp [updateLocal]
  | cons p l ih =>
    simp only [updateLocal]
    refine bind_fuel (applyMatches_returns hk _ _ _ _ _) fun a => bind_fuel ih fun b => ?_
    split <;> simp

theorem updateStaged_returns {k : Kind P D Env} (hk : CallsReturn k) (hp : ∀ f, k.promote f ≠ none)
    (env : Env) (det : List D) (n : Nat) (todo loc : Store P) (hn : todo.length ≤ n) :
    updateStaged k env det n todo loc ≠ .outOfFuel := by
  induction n generalizing todo loc with
  | zero =>
    cases todo with
    | nil => simp [updateStaged]
    | cons p l => simp at hn
  | succ n ih =>
    cases todo with
    | nil => simp [updateStaged]
    | cons p l =>
      have hl : l.length ≤ n := by simpa using hn
      simp only [updateStaged]
      refine bind_fuel (applyMatches_returns hk _ _ _ _ _) fun a => ?_
      split
      · split
        · exact bind_fuel (ih _ _ hl) fun b => by simp
        · rename_i hb; exact absurd hb (hp _)
      · exact bind_fuel (ih _ _ hl) fun b => by split <;> simp

/-- The update of a map returns after visiting each candidate once, provided that building a map
feature from a candidate never throws. -/
theorem C17_update_terminates_partial (k : Kind P D Env) (hk : CallsReturn k)
    (hp : ∀ f, k.promote f ≠ none) (env : Env) (det : List D) (s : State P) (fuel : Nat)
    (hf : s.map.staged.length ≤ fuel) : updateMap k fuel env det s ≠ .outOfFuel := by
  unfold updateMap
  split
  · simp
  · split
    · simp
    · exact bind_fuel (updateLocal_returns hk _ _ _) fun a =>
        bind_fuel (updateStaged_returns hk hp _ _ _ _ _ hf) fun b => by simp

/-- The same points, but building a map point from a candidate throws. -/
def stuckKind : Kind Nat Nat Unit := pointKind { demoOps with copy := fun _ => none }

theorem stuck (n : Nat) (f : Feat Nat) (hm : f.matched = [0]) (hs : 2 ≤ f.succ) (loc : Store Nat) :
    updateStaged stuckKind () [7] n [(1, f)] loc = .outOfFuel := by
  induction n generalizing f with
  | zero => rfl
  | succ n ih =>
    have ha : applyMatches stuckKind () [7] true f.matched f = .ok (f, true, [0]) := by
      rw [hm]
      simp [applyMatches, stuckKind, pointKind, guardedUpdate, hm, demoOps, Outcome.noexcept]
      rw [← hm]
    have hadd : stuckKind.shouldAdd (settle true f) = true := by
      simp only [stuckKind, pointKind, decide_eq_true_eq]
      rw [confidence_enough]
      simp [settle]; omega
    have hprom : stuckKind.promote (settle true f) = none := rfl
    simp only [updateStaged, ha, Outcome.bind_ok, hadd, if_true, hprom]
    rw [ih (settle true f) (by simp [settle, hm]) (by simp [settle]; omega)]
    rfl

/-- When building a map feature from a candidate throws, the update does not return: there is a
reachable map for which no number of iterations suffices. -/
theorem C17_update_may_loop_false : ∃ (k : Kind Nat Nat Unit) (ops : List (Op Nat Nat Unit))
    (s : State Nat), run k ops (State.init Alloc.start) = .ok s ∧ CallsReturn k ∧
    ∀ fuel, updateMap k fuel () [7] s = .outOfFuel := by
  refine ⟨stuckKind, demoFrame [7] [] ++ demoFrame [7] [0] ++ demoFrame [7] [0] ++ [.find () [7]],
    ⟨⟨true, [], [(1, ⟨1, 0, 2, [0], 7⟩)], [true]⟩, ⟨1, 1⟩, []⟩, by decide +kernel, ?_, ?_⟩
  · intro env d f
    simp only [stuckKind, pointKind, guardedUpdate, demoOps]
    split <;> simp
  · intro fuel
    have : updateStaged stuckKind () [7] fuel
        [(1, ⟨1, 0, 2, [0], 7⟩)] [] = .outOfFuel := stuck fuel _ rfl (by decide) []
    show (updateStaged stuckKind () [7] fuel [(1, ⟨1, 0, 2, [0], 7⟩)] []).bind _ = .outOfFuel
    rw [this]
    rfl

/-- non-vacuity of the hypotheses of `C17_update_terminates_partial` -/
example : CallsReturn demo ∧ (∀ f, demo.promote f ≠ none) := by
  constructor
  · intro env d f
    simp only [demo, pointKind, guardedUpdate, demoOps]
    split <;> simp
  · intro f; simp [demo, pointKind, demoOps]

end RgbdSlam.Map
