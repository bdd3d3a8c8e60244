import Verif.Props.Consensus
import Verif.Props.Recognition

/-! # C186: matches without any error are all kept

`compute_pose_with_ransac` (pose_optimization.cpp 107-262) draws subsets of the matches, finds a pose from each, and keeps the
matches that agree with the best pose.  When every subset that is large enough gives a pose with which *all* the matches agree (no
wrong association, errors below the thresholds), the search must succeed, keep every match and reject none, whatever the
interleaving of its iterations and whatever the draws. -/

namespace RgbdSlam.Ransac

variable {M Pose : Type}

/-- The pose was found from some subset of the matches, of total score at least 1. -/
def Spec.FoundFrom (p : Problem M Pose) (current : Pose) (l : List M) (q : Pose) : Prop :=
  ∃ s, DrawnFrom s l ∧ 1 ≤ total p.score s ∧ p.minimise current s = some q

/-- There is no wrong match: each match gives at least 2 residuals, every subset of total score at least 1 gives a pose that agrees with all
the matches, and from each of these poses the minimisation over all the matches ends. -/
structure Spec.Faultless (p : Problem M Pose) (current : Pose) (l : List M) : Prop where
  parts : ∀ m ∈ l, 2 ≤ p.parts m
  solves : ∀ s, DrawnFrom s l → 1 ≤ total p.score s →
    ∃ q, p.minimise current s = some q ∧ ∀ m ∈ l, p.inlier q m = true
  refines : ∀ q, Spec.FoundFrom p current l q → (p.minimise q l).isSome = true

/-- A candidate that keeps everything. -/
def FullCand (p : Problem M Pose) (current : Pose) (l : List M) (c : Cand M Pose) : Prop :=
  c.sets = ⟨l, [], total p.score l⟩ ∧ Spec.FoundFrom p current l c.pose

theorem two_parts {p : Problem M Pose} {s : List M} (h : ∀ m ∈ s, 2 ≤ p.parts m) (hs : 1 ≤ total p.score s) :
    ¬ (s.map p.parts).sum ≤ 1 := by
  cases s with
  | nil => exact absurd hs (by simp [total])
  | cons m s =>
    have := h m (by simp)
    simp only [List.map_cons, List.sum_cons]
    omega

theorem enough_score {p : Problem M Pose} {s : List M} (hs : 1 ≤ total p.score s) : ¬ setScore p s < 1 := by
  rw [setScore_eq]; exact Rat.not_lt.2 hs

theorem drawn_mem {s l : List M} (h : DrawnFrom s l) : ∀ m ∈ s, m ∈ l := by
  obtain ⟨t, h1, h2⟩ := h
  exact fun m hm => h2.subset (h1.mem_iff.1 hm)

theorem evaluate_full {p : Problem M Pose} {current : Pose} {l sh : List M} (hs : 1 ≤ total p.score l)
    (hf : Spec.Faultless p current l) (hp : sh.Perm l) :
    ∃ c, evaluate p current l sh = .ok (some c) ∧ FullCand p current l c := by
  obtain ⟨s, h1, h2, h3⟩ := randomSubset_ok hs hp
  obtain ⟨q, hq, hin⟩ := hf.solves s h2 h3
  have hsp : split p q l = ⟨l, [], total p.score l⟩ := by
    rw [split_eq, List.filter_eq_self.2 hin, List.filter_eq_nil_iff.2 (fun m hm => by simp [hin m hm])]
    rfl
  refine ⟨⟨q, ⟨l, [], total p.score l⟩⟩, ?_, rfl, s, h2, h3, hq⟩
  have hg : globalPose p current s = some q := by
    rw [globalPose, if_neg (two_parts (fun m hm => hf.parts m (drawn_mem h2 m hm)) h3), if_neg (enough_score h3), hq]
  rw [evaluate, h1, Outcome.bind_ok, hg]
  simp only [hsp]
  rw [if_neg (Rat.not_lt.2 hs)]

/-! ## The parallel loop -/

/-- What holds of the shared variables. -/
structure FullSh (p : Problem M Pose) (current : Pose) (l : List M) (sh : Shared M Pose) : Prop where
  score : sh.maxScore = 1 ∨ sh.maxScore = total p.score l
  sets : sh.inliers = [] ∨ sh.inliers = l
  out : sh.outliers = []
  pose : sh.inliers = l → Spec.FoundFrom p current l sh.bestPose
  quit : sh.canQuit = true → sh.inliers = l

/-- What holds of an iteration. -/
def FullPc (p : Problem M Pose) (current : Pose) (l : List M) (sh : Shared M Pose) : Pc M Pose → Prop
  | .start => True
  | .greater c | .lock c | .writeScore c | .writePose c => FullCand p current l c
  | .close c | .larger c => FullCand p current l c ∧ sh.maxScore = total p.score l
  | .writeInliers c => FullCand p current l c ∧ Spec.FoundFrom p current l sh.bestPose
  | .writeOutliers c | .unlock c => FullCand p current l c ∧ sh.inliers = l
  | .stopTest | .setQuit | .done => sh.inliers = l

structure FullInv (p : Problem M Pose) (current : Pose) (l : List M) (n : Nat) (s : Par M Pose) : Prop where
  len : s.pcs.length = n
  live : s.terminated = false
  sh : FullSh p current l s.sh
  pcs : ∀ pc ∈ s.pcs, FullPc p current l s.sh pc

theorem FullPc.mono {p : Problem M Pose} {current : Pose} {l : List M} {sh sh' : Shared M Pose}
    (h1 : sh.maxScore = total p.score l → sh'.maxScore = total p.score l)
    (h2 : Spec.FoundFrom p current l sh.bestPose → Spec.FoundFrom p current l sh'.bestPose)
    (h3 : sh.inliers = l → sh'.inliers = l) {pc : Pc M Pose} (h : FullPc p current l sh pc) : FullPc p current l sh' pc := by
  cases pc with
  | start => trivial
  | greater c => exact h
  | lock c => exact h
  | writeScore c => exact h
  | writePose c => exact h
  | close c => exact ⟨h.1, h1 h.2⟩
  | larger c => exact ⟨h.1, h1 h.2⟩
  | writeInliers c => exact ⟨h.1, h2 h.2⟩
  | writeOutliers c => exact ⟨h.1, h3 h.2⟩
  | unlock c => exact ⟨h.1, h3 h.2⟩
  | stopTest => exact h3 h
  | setQuit => exact h3 h
  | done => exact h3 h

theorem full_move {p : Problem M Pose} {current : Pose} {l : List M} {n i : Nat} {s : Par M Pose} {pc' : Pc M Pose}
    {sh' : Shared M Pose} {holder : Option Nat} (hI : FullInv p current l n s)
    (h1 : s.sh.maxScore = total p.score l → sh'.maxScore = total p.score l)
    (h2 : Spec.FoundFrom p current l s.sh.bestPose → Spec.FoundFrom p current l sh'.bestPose)
    (h3 : s.sh.inliers = l → sh'.inliers = l) (hsh : FullSh p current l sh') (hpc : FullPc p current l sh' pc') :
    FullInv p current l n ⟨sh', holder, s.pcs.set i pc', s.terminated⟩ where
  len := by simp [hI.len]
  live := hI.live
  sh := hsh
  pcs := by
    intro q hq
    rcases List.mem_or_eq_of_mem_set hq with h | h
    · exact (hI.pcs q h).mono h1 h2 h3
    · subst h; exact hpc

theorem full_step {p : Problem M Pose} {current : Pose} {l shuffled : List M} {stop n i : Nat} {s s' : Par M Pose}
    (hs : 1 ≤ total p.score l) (hf : Spec.Faultless p current l) (hperm : shuffled.Perm l) (hI : FullInv p current l n s)
    (h : s.step p current l stop shuffled i = some s') : FullInv p current l n s' := by
  have hS := hI.sh
  unfold Par.step at h
  simp only at h
  split at h
  · cases h
  · rename_i hpc
    split at h
    · rename_i hq
      injection h with h; subst h
      exact full_move hI id id id hS (hS.quit hq)
    · obtain ⟨c, hr, hc⟩ := evaluate_full hs hf hperm
      rw [hr] at h
      injection h with h; subst h
      exact full_move hI id id id hS hc
  · rename_i c hpc
    have hc : FullCand p current l c := hI.pcs _ (List.mem_of_getElem? hpc)
    split at h
    · injection h with h; subst h
      exact full_move hI id id id hS hc
    · rename_i hno
      injection h with h; subst h
      refine full_move hI id id id hS ⟨hc, ?_⟩
      rw [hc.1] at hno
      rcases hS.score with h1 | h1
      · rw [h1] at hno ⊢
        exact Rat.le_antisymm hs (Rat.not_lt.1 hno)
      · exact h1
  · rename_i c hpc
    obtain ⟨hc, hm⟩ : FullCand p current l c ∧ s.sh.maxScore = total p.score l := hI.pcs _ (List.mem_of_getElem? hpc)
    rw [if_pos (by rw [hc.1, hm]; constructor <;> grind)] at h
    injection h with h; subst h
    exact full_move hI id id id hS ⟨hc, hm⟩
  · rename_i c hpc
    obtain ⟨hc, hm⟩ : FullCand p current l c ∧ s.sh.maxScore = total p.score l := hI.pcs _ (List.mem_of_getElem? hpc)
    split at h
    · injection h with h; subst h
      exact full_move hI id id id hS hc
    · rename_i hno
      injection h with h; subst h
      refine full_move hI id id id hS ?_
      rcases hS.sets with h1 | h1
      · rw [hc.1, h1] at hno
        have : l = [] := by simpa using hno
        show s.sh.inliers = l
        rw [h1, this]
      · exact h1
  · rename_i c hpc
    have hc : FullCand p current l c := hI.pcs _ (List.mem_of_getElem? hpc)
    split at h
    · cases h
    · injection h with h; subst h
      exact full_move hI id id id hS hc
  · rename_i c hpc
    have hc : FullCand p current l c := hI.pcs _ (List.mem_of_getElem? hpc)
    injection h with h; subst h
    have e : c.sets.score = total p.score l := by rw [hc.1]
    exact full_move hI (fun _ => e) id id ⟨.inr e, hS.sets, hS.out, hS.pose, hS.quit⟩ hc
  · rename_i c hpc
    have hc : FullCand p current l c := hI.pcs _ (List.mem_of_getElem? hpc)
    injection h with h; subst h
    exact full_move hI id (fun _ => hc.2) id ⟨hS.score, hS.sets, hS.out, fun _ => hc.2, hS.quit⟩ ⟨hc, hc.2⟩
  · rename_i c hpc
    obtain ⟨hc, hm⟩ : FullCand p current l c ∧ Spec.FoundFrom p current l s.sh.bestPose := hI.pcs _ (List.mem_of_getElem? hpc)
    injection h with h; subst h
    have e : c.sets.inliers = l := by rw [hc.1]
    exact full_move hI id id (fun _ => e) ⟨hS.score, .inr e, hS.out, fun _ => hm, fun _ => e⟩ ⟨hc, e⟩
  · rename_i c hpc
    obtain ⟨hc, hm⟩ : FullCand p current l c ∧ s.sh.inliers = l := hI.pcs _ (List.mem_of_getElem? hpc)
    injection h with h; subst h
    have e : c.sets.outliers = [] := by rw [hc.1]
    exact full_move hI id id id ⟨hS.score, hS.sets, e, hS.pose, hS.quit⟩ ⟨hc, hm⟩
  · rename_i c hpc
    obtain ⟨hc, hm⟩ : FullCand p current l c ∧ s.sh.inliers = l := hI.pcs _ (List.mem_of_getElem? hpc)
    injection h with h; subst h
    exact full_move hI id id id hS hm
  · rename_i hpc
    have hm : s.sh.inliers = l := hI.pcs _ (List.mem_of_getElem? hpc)
    split at h <;> (injection h with h; subst h)
    all_goals exact full_move hI id id id hS hm
  · rename_i hpc
    have hm : s.sh.inliers = l := hI.pcs _ (List.mem_of_getElem? hpc)
    injection h with h; subst h
    exact full_move hI id id id ⟨hS.score, hS.sets, hS.out, hS.pose, fun _ => hm⟩ hm
  · cases h

theorem full_init (p : Problem M Pose) (current : Pose) {l : List M} (n : Nat) (hs : 1 ≤ total p.score l) :
    FullInv p current l n (.init current n) where
  len := by simp [Par.init]
  live := rfl
  sh := by
    have hne : l ≠ [] := by
      rintro rfl
      exact absurd hs (by simp [total])
    exact ⟨.inl rfl, .inl rfl, rfl, fun h => absurd h.symm hne, fun h => by cases h⟩
  pcs := by
    intro pc h
    rw [Par.init] at h
    rw [List.eq_of_mem_replicate h]
    trivial

theorem full_reach {p : Problem M Pose} {current : Pose} {l : List M} {stop n : Nat} {s : Par M Pose}
    (hs : 1 ≤ total p.score l) (hf : Spec.Faultless p current l) (h : Par.Reach p current l stop n s) :
    FullInv p current l n s := by
  induction h with
  | init => exact full_init p current n hs
  | step sh i _ hp hstep ih => exact full_step hs hf hp ih hstep

theorem finish_full {p : Problem M Pose} {current : Pose} {l : List M} {s : Shared M Pose} (out : Pose)
    (hs : 1 ≤ total p.score l) (hf : Spec.Faultless p current l) (hS : FullSh p current l s) (hi : s.inliers = l) :
    ∃ q q', Spec.FoundFrom p current l q ∧ p.minimise q l = some q' ∧ finish p out s = ⟨true, q', l, []⟩ := by
  have hq := hS.pose hi
  obtain ⟨q', e⟩ := Option.isSome_iff_exists.1 (hf.refines _ hq)
  refine ⟨s.bestPose, q', hq, e, ?_⟩
  have hg : globalPose p s.bestPose l = some q' := by
    rw [globalPose, if_neg (two_parts hf.parts hs), if_neg (enough_score hs), e]
  rw [finish, hi, if_neg (enough_score hs), hg]
  simp only [hS.out]

/-- C186: when there is no wrong match, the consensus search of the default build succeeds for every interleaving of its iterations and
every draw: it keeps all the matches, rejects none, and returns what the minimisation over all the matches gives from a pose found on
a subset of them. -/
theorem C186_all_kept {p : Problem M Pose} {current out : Pose} {l : List M} {stop n : Nat} (hs : 1 ≤ total p.score l)
    (hn : 0 < n) (hf : Spec.Faultless p current l) {r : Outcome (Result M Pose)} (h : Ransac p current l stop n out r) :
    ∃ q q', Spec.FoundFrom p current l q ∧ p.minimise q l = some q' ∧ r = .ok ⟨true, q', l, []⟩ := by
  cases h with
  | few h => rw [setScore_eq] at h; exact absurd h (Rat.not_lt.2 hs)
  | @loop s _ hr hfin _ =>
    have hI := full_reach hs hf hr
    have h0 : s.pcs[0]? = some (s.pcs[0]'(by rw [hI.len]; exact hn)) := List.getElem?_eq_getElem _
    have hd := hfin _ (List.mem_of_getElem? h0)
    rw [hd] at h0
    have hi : s.sh.inliers = l := hI.pcs _ (List.mem_of_getElem? h0)
    obtain ⟨q, q', h1, h2, h3⟩ := finish_full out hs hf hI.sh hi
    exact ⟨q, q', h1, h2, by rw [h3]⟩
  | crash _ hr ht =>
    have hI := full_reach hs hf hr
    rw [hI.live] at ht
    cases ht

theorem seq_full {p : Problem M Pose} {current : Pose} {l : List M} {stop : Nat} (hs : 1 ≤ total p.score l)
    (hf : Spec.Faultless p current l) : ∀ (draws : List (List M)) (i : Nat) (s : Shared M Pose), (∀ sh ∈ draws, sh.Perm l) →
      FullSh p current l s → (draws = [] → s.inliers = l) → ∃ s', seqLoop p current l stop i draws s = .ok s' ∧
        FullSh p current l s' ∧ s'.inliers = l
  | [], i, s, _, hS, hi => ⟨s, rfl, hS, hi rfl⟩
  | sh :: shs, i, s, hp, hS, _ => by
    rw [seqLoop]
    split
    · rename_i hq
      exact ⟨s, rfl, hS, hS.quit hq⟩
    · obtain ⟨c, hr, hc⟩ := evaluate_full hs hf (hp sh (by simp))
      rw [hr, Outcome.bind_ok]
      have key : FullSh p current l (seqTurn stop i (some c) s) ∧ (seqTurn stop i (some c) s).inliers = l := by
        have aux : ∀ s' : Shared M Pose, FullSh p current l s' → s'.inliers = l →
            FullSh p current l (if minIterations ≤ i ∧ stop < s'.inliers.length then { s' with canQuit := true } else s') ∧
            (if minIterations ≤ i ∧ stop < s'.inliers.length then { s' with canQuit := true } else s').inliers = l := by
          intro s' h1 h2
          split
          · exact ⟨⟨h1.score, h1.sets, h1.out, h1.pose, fun _ => h2⟩, h2⟩
          · exact ⟨h1, h2⟩
        rw [seqTurn]
        refine aux _ ?_ ?_
        · split
          · exact ⟨.inr (by rw [hc.1]), .inr (by rw [hc.1]), by rw [hc.1], fun _ => hc.2, fun _ => by rw [hc.1]⟩
          · exact hS
        · split
          · rw [hc.1]
          · rename_i hno
            rcases hS.sets with h1 | h1
            · exfalso
              apply hno
              rw [hc.1, h1]
              have hl : 0 < l.length := by
                rcases l with _ | ⟨m, l⟩
                · exact absurd hs (by simp [total])
                · simp
              rw [canOverload, Bool.or_eq_true, Bool.and_eq_true]
              by_cases hlt : s.maxScore < total p.score l
              · exact .inl (decide_eq_true hlt)
              · right
                have : s.maxScore = total p.score l := by
                  rcases hS.score with h | h
                  · rw [h] at hlt ⊢
                    exact Rat.le_antisymm hs (Rat.not_lt.1 hlt)
                  · exact h
                refine ⟨decide_eq_true ?_, decide_eq_true hl⟩
                simp only [this]
                constructor <;> grind
            · exact h1
      exact seq_full hs hf shs (i + 1) _ (fun x hx => hp x (by simp [hx])) key.1 fun _ => key.2

/-- C186: the same for the deterministic build, as soon as it makes one iteration. -/
theorem C186_all_kept_deterministic {p : Problem M Pose} {current out : Pose} {l : List M} {stop : Nat}
    (hs : 1 ≤ total p.score l) (hf : Spec.Faultless p current l) {draws : List (List M)} (hd : draws ≠ [])
    (hp : ∀ sh ∈ draws, sh.Perm l) :
    ∃ q q', Spec.FoundFrom p current l q ∧ p.minimise q l = some q' ∧
      ransacSeq p current l stop out draws = .ok ⟨true, q', l, []⟩ := by
  obtain ⟨s, e, hS, hi⟩ := seq_full (stop := stop) hs hf draws 0 (.init current) hp (full_init p current 0 hs).sh
    (fun h => absurd h hd)
  obtain ⟨q, q', h1, h2, h3⟩ := finish_full out hs hf hS hi
  refine ⟨q, q', h1, h2, ?_⟩
  rw [ransacSeq, if_neg (enough_score hs), e]
  simp [Outcome.map, Outcome.bind, Outcome.noexcept, h3]

/-- C186: `compute_optimized_pose` then succeeds too, with every match kept, when the matches are valid and the variance of the pose
can be estimated. -/
theorem C186_pose_optimised {Var : Type} {p : Problem M Pose} {current out : Pose} {l : List M} {stop n : Nat}
    (hs : 1 ≤ total p.score l) (hn : 0 < n) (hf : Spec.Faultless p current l) {r : Outcome (Result M Pose)}
    (h : Ransac p current l stop n out r) {valid : M → Bool} (hv : ∀ m ∈ l, valid m = true)
    {variance : Pose → List M → Option Var}
    (hvar : ∀ q q', Spec.FoundFrom p current l q → p.minimise q l = some q' → (variance q' l).isSome = true) :
    ∃ q q' v, Spec.FoundFrom p current l q ∧ p.minimise q l = some q' ∧ variance q' l = some v ∧
      optimizedPose valid l out r variance = .ok (⟨true, q', l, []⟩, some v) := by
  obtain ⟨q, q', h1, h2, rfl⟩ := C186_all_kept hs hn hf h
  obtain ⟨v, e⟩ := Option.isSome_iff_exists.1 (hvar q q' h1 h2)
  refine ⟨q, q', v, h1, h2, e, ?_⟩
  rw [optimizedPose, if_pos (List.all_eq_true.2 hv), Outcome.bind_ok]
  simp [e]

/-! ## Seven matches, and a pose that depends on the draw -/

/-- The pose found from a subset is its first match; a match agrees with a pose at most 10 above it. -/
def sloppy : Problem Nat Nat where
  score _ := 1 / 5
  parts _ := 2
  inlier q m := decide (q ≤ m + 10)
  minimise _ s := s.head?

def sevenGood : List Nat := [0, 1, 2, 3, 4, 5, 6]

theorem sloppy_faultless : Spec.Faultless sloppy 7 sevenGood where
  parts _ _ := Nat.le_refl 2
  solves s hd hs := by
    cases s with
    | nil => exact absurd hs (by simp [total])
    | cons q s =>
      refine ⟨q, rfl, fun m _ => decide_eq_true ?_⟩
      have hq : ∀ x ∈ sevenGood, x ≤ 10 := by decide
      have := hq q (drawn_mem hd q (by simp))
      omega
  refines _ _ := rfl

example : 1 ≤ total sloppy.score sevenGood := by decide +kernel

/-- Two interleaved iterations: the one that began last is the last one to write. -/
example : ∃ r, Ransac sloppy 7 sevenGood 99 2 7 r := by
  let sched : List (List Nat × Nat) := [([6, 5, 4, 3, 2, 1, 0], 0), ([6, 5, 4, 3, 2, 1, 0], 0)] ++
    List.replicate 9 ([3, 2, 1, 0, 6, 5, 4], 1) ++ List.replicate 7 ([6, 5, 4, 3, 2, 1, 0], 0)
  have hp : ∀ e ∈ sched, e.1.Perm sevenGood := by decide
  have h : ends sloppy sevenGood 99 2 sched (fun s => decide (s.sh.bestPose ≠ 7)) = true := by decide +kernel
  obtain ⟨s, h1, h2, h3, -⟩ := ends_reach hp h
  exact ⟨_, .loop (by decide +kernel) h1 h2 h3⟩

example : ransacSeq sloppy 7 sevenGood 99 7 [[6, 5, 4, 3, 2, 1, 0], [3, 2, 1, 0, 6, 5, 4]] =
    .ok ⟨true, 0, sevenGood, []⟩ := by
  obtain ⟨q, q', -, h2, h3⟩ := C186_all_kept_deterministic (stop := 99) (out := 7) (by decide +kernel) sloppy_faultless
    (draws := [[6, 5, 4, 3, 2, 1, 0], [3, 2, 1, 0, 6, 5, 4]]) (by simp) (by decide)
  rw [h3, ← (Option.some.inj h2 : 0 = q')]

end RgbdSlam.Ransac

namespace RgbdSlam.Map

open Ransac

variable {Pose : Type}

/-- C186: the matches of a camera that does not move (C185: one match per keypoint, at least 5 keypoints).  If the current pose agrees with all the
matches and the minimisation, started from it, stays there, then the optimiser of the program gives this pose back and rejects nothing,
for every interleaving and every draw: the hypothesis that C185 makes about the optimiser. -/
theorem C186_still_camera {Var : Type} {p : Problem Match Pose} {start : Pose} {n stop iterations : Nat} (h5 : 5 ≤ n)
    (hit : 0 < iterations) (hscore : ∀ m ∈ Spec.allFound n, p.score m = 1 / 5) (hparts : ∀ m ∈ Spec.allFound n, p.parts m = 2)
    (hagree : ∀ m ∈ Spec.allFound n, p.inlier start m = true)
    (hstays : ∀ s, DrawnFrom s (Spec.allFound n) → 1 ≤ total p.score s → p.minimise start s = some start)
    {valid : Match → Bool} (hv : ∀ m ∈ Spec.allFound n, valid m = true) {variance : Pose → List Match → Option Var} {v : Var}
    (hvar : variance start (Spec.allFound n) = some v) {r : Outcome (Result Match Pose)}
    (h : Ransac p start (Spec.allFound n) stop iterations start r) :
    optimizedPose valid (Spec.allFound n) start r variance = .ok (⟨true, start, Spec.allFound n, []⟩, some v) := by
  have hsum : ∀ l : List Match, (∀ m ∈ l, p.score m = 1 / 5) → total p.score l = l.length / 5 := by
    intro l hl
    induction l with
    | nil => simp [total]
    | cons m l ih =>
      have := ih fun x hx => hl x (by simp [hx])
      simp only [total] at this ⊢
      rw [List.map_cons, List.sum_cons, this, hl m (by simp), List.length_cons]
      push_cast
      grind
  have hs : 1 ≤ total p.score (Spec.allFound n) := by
    rw [hsum _ hscore]
    have h1 : (Spec.allFound n).length = n := by simp [Spec.allFound]
    have : (5 : Rat) ≤ n := by exact_mod_cast h5
    rw [h1]
    grind
  have hfound : ∀ q, Spec.FoundFrom p start (Spec.allFound n) q → q = start := by
    rintro q ⟨s, h1, h2, h3⟩
    rw [hstays s h1 h2] at h3
    exact (Option.some.inj h3).symm
  have hself : DrawnFrom (Spec.allFound n) (Spec.allFound n) := ⟨_, .refl _, .refl _⟩
  have hf : Spec.Faultless p start (Spec.allFound n) :=
    { parts := fun m hm => (hparts m hm).ge
      solves := fun s h1 h2 => ⟨start, hstays s h1 h2, hagree⟩
      refines := fun q hq => by rw [hfound q hq, hstays _ hself hs]; rfl }
  obtain ⟨q, q', v', h1, h2, h3, h4⟩ := C186_pose_optimised hs hit hf h hv (variance := variance) (fun q q' h1 h2 => by
    rw [hfound q h1, hstays _ hself hs] at h2
    rw [← Option.some.inj h2, hvar]; rfl)
  rw [hfound q h1, hstays _ hself hs] at h2
  obtain rfl := Option.some.inj h2
  rw [hvar] at h3
  rw [h4, Option.some.inj h3]

/-- Five points, and a minimisation that does not move. -/
example : ∃ (p : Problem Match Nat) (r : Outcome (Result Match Nat)), (∀ m ∈ Spec.allFound 5, p.score m = 1 / 5) ∧
    (∀ s : List Match, p.minimise 7 s = some 7) ∧ Ransac p 7 (Spec.allFound 5) 99 1 7 r := by
  let p : Problem Match Nat := ⟨fun _ => 1 / 5, fun _ => 2, fun _ _ => true, fun q _ => some q⟩
  let sched : List (List Match × Nat) := List.replicate 11 (Spec.allFound 5, 0)
  have hp : ∀ e ∈ sched, e.1.Perm (Spec.allFound 5) := by
    intro e he
    rw [(List.mem_replicate.1 he).2]
  have hr : ((Par.runSchedule p 7 (Spec.allFound 5) 99 sched (.init 7 1)).map fun s => (s.pcs, s.terminated)) = some ([.done], false) := by
    decide +kernel
  obtain ⟨s, h1, h2⟩ := Option.map_eq_some_iff.1 hr
  refine ⟨p, _, fun _ _ => rfl, fun _ => rfl, .loop (by decide +kernel) (reach_schedule .init hp h1) ?_ (congrArg Prod.snd h2)⟩
  intro pc hpc
  have : s.pcs = [.done] := congrArg Prod.fst h2
  rw [this] at hpc
  simpa using hpc

end RgbdSlam.Map
