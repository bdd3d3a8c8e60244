import Mathlib.Tactic.NormNum
import Mathlib.Tactic.IntervalCases
import Verif.Lemmas.PolygonRepair2
import Verif.Spec.PolygonRepair
/- C144: the outline of a set of points that crosses itself is cut into loops. -/
namespace RgbdSlam.PolygonRepair

open Spec

/-- C144: the table that the walk along the outline reads is complete, for every outline and every list of
intersections: the starting points and the targets of the jumps are in it, and there is always a next vertex. -/
theorem C144_table_complete (ring : List Pt) (turns : List Turn) (t : Table)
    (h : findIntersections ring turns = .ok t) :
    (∀ k ∈ t.starts, ∃ e, find k t.vertices = some e ∧ e.1 = k) ∧
    (∀ e ∈ t.vertices, e.1.reroute = true → ∃ e', find e.2.link t.vertices = some e' ∧ e'.1 = e.2.link) ∧
    (t.vertices ≠ [] → ∀ k, ∃ e, next t.vertices k = some e) := by
  have hl := linked_findIntersections h
  exact ⟨fun k hk => find_some (hl.2 k hk), fun e he hr => find_some (hl.1 e he hr), fun hne k => next_some hne k⟩

/-- C144: an outline whose intersections are all dropped is returned closed and clockwise, unless its area is 0. -/
theorem C144_no_crossing (selfTurns : List Pt → List Turn) (fuel : ℕ) (ring : List Pt) (h3 : 3 ≤ ring.length)
    (h : selfTurns (orient (close ring)) = []) :
    correctRing selfTurns fuel ring =
      .ok (if area (close ring) = 0 then [] else [(orient (close ring), |area (close ring)|)]) := by
  unfold correctRing
  rw [if_neg (by omega)]
  simp only [h, findIntersections, List.foldl_nil, Outcome.bind_ok, area_orient, abs_abs, abs_pos]
  split_ifs <;> first | rfl | contradiction

theorem nodup_keys {a b c : List Pt} {i j : ℕ} (hi : i = a.length - 1) (hj : j = a.length + b.length - 1)
    (ha : a ≠ []) (hb : b ≠ []) {o1 o2 : ℚ} (h1 : 0 < o1) (h2 : 0 < o2) (v1 v2 v3 v4 : Vertex) :
    ((entries 0 a ++ ((⟨i, o1, j, true⟩ : Key), v1) :: (⟨i, o1, j, false⟩, v2) ::
      (entries a.length b ++ (⟨j, o2, i, true⟩, v3) :: (⟨j, o2, i, false⟩, v4) ::
        entries (a.length + b.length) c)).map Prod.fst).Nodup := by
  have la := List.length_pos_of_ne_nil ha
  have lb := List.length_pos_of_ne_nil hb
  have hij : i < j := by omega
  have key : ∀ (off : ℕ) (l : List Pt), ((entries off l).map Prod.fst).Nodup := by
    intro off l
    induction l generalizing off with
    | nil => simp [entries]
    | cons x l ih =>
      rw [entries_cons, List.map_cons, List.nodup_cons]
      refine ⟨fun h => ?_, ih _⟩
      obtain ⟨e, he, hk⟩ := List.mem_map.1 h
      have := (mem_entries he).2.2.1
      rw [hk] at this
      simp at this
  have kin : ∀ {off : ℕ} {l : List Pt} {k : Key}, k ∈ (entries off l).map Prod.fst →
      k.scale = 0 ∧ off ≤ k.index1 ∧ k.index1 < off + l.length := by
    intro off l k h
    obtain ⟨e, he, rfl⟩ := List.mem_map.1 h
    have := mem_entries he
    exact ⟨this.2.1, this.2.2.1, this.2.2.2.1⟩
  have n1 : ∀ {off : ℕ} {l : List Pt} {x y : ℕ} {o : ℚ} {r : Bool}, 0 < o →
      (⟨x, o, y, r⟩ : Key) ∉ (entries off l).map Prod.fst := by
    intro off l x y o r ho h
    have := (kin h).1
    simp at this
    linarith
  have nk : ∀ (r r' : Bool), (⟨i, o1, j, r⟩ : Key) ≠ ⟨j, o2, i, r'⟩ := by
    intro r r' h
    have := congrArg Key.index1 h
    simp at this
    omega
  simp only [List.map_append, List.map_cons]
  rw [List.nodup_append, List.nodup_cons, List.nodup_cons, List.nodup_append, List.nodup_cons, List.nodup_cons]
  refine ⟨key _ _, ⟨?_, ?_, key _ _, ⟨?_, n1 h2, key _ _⟩, ?_⟩, ?_⟩
  · simp only [List.mem_cons, List.mem_append, not_or]
    exact ⟨by simp, n1 h1, nk _ _, nk _ _, n1 h1⟩
  · simp only [List.mem_cons, List.mem_append, not_or]
    exact ⟨n1 h1, nk _ _, nk _ _, n1 h1⟩
  · simp only [List.mem_cons, not_or]
    exact ⟨by simp, n1 h2⟩
  · intro k hk k' hk' e
    subst e
    rcases List.mem_cons.1 hk' with rfl | hk'
    · exact n1 h2 hk
    rcases List.mem_cons.1 hk' with rfl | hk'
    · exact n1 h2 hk
    · have := (kin hk).2.2; have := (kin hk').2.1; omega
  · intro k hk k' hk' e
    subst e
    rcases List.mem_cons.1 hk' with rfl | hk'
    · exact n1 h1 hk
    rcases List.mem_cons.1 hk' with rfl | hk'
    · exact n1 h1 hk
    rcases List.mem_append.1 hk' with hk' | hk'
    · have := (kin hk).2.2; have := (kin hk').2.1; omega
    rcases List.mem_cons.1 hk' with rfl | hk'
    · exact n1 h2 hk
    rcases List.mem_cons.1 hk' with rfl | hk'
    · exact n1 h2 hk
    · have := (kin hk).2.2; have := (kin hk').2.1; omega

theorem last_concat (x : Pt) (l : List Pt) (y : Pt) : (x :: l ++ [y]).getLast? = some y := by
  rw [List.getLast?_append]; rfl

/-- One walk: from a crossing, along vertices that are not the crossing, to the crossing again. -/
theorem follow_loop {t : Table} {P : Pt} {k : Key} {v : Vertex} {x : Key × Vertex} {run : List (Key × Vertex)}
    (hv : v.p = P) (hx : x.2.p = P) (hk : k ∈ t.starts) (hkr : k.reroute = false) (hxr : x.1.reroute = true)
    (hxs : x.1 ∉ t.starts) (hlink : ∃ e, find x.2.link t.vertices = some e) (hne : run ≠ [])
    (hchain : List.IsChain (fun e e' => next t.vertices e.1 = some e') ((k, v) :: run ++ [x]))
    (hrun : ∀ e ∈ run, e.1.reroute = false ∧ e.1 ∉ t.starts ∧ e.2.p ≠ P) (keys : List Key)
    (hkeys : ∀ k ∈ keys, k ∈ t.starts) (pieces : List (List Pt × ℚ)) (fuel : ℕ) (hf : run.length + 2 ≤ fuel) :
    ∃ s, follow t fuel (k, v) { ring := [], starts := [(P, 0)], startKeys := keys, pieces := pieces } =
      .ok { ring := (run.map fun e => e.2.p).foldl pushPoint [P] ++ [P], starts := s
            startKeys := keys.filter (fun k' => !decide (k' = k)), pieces := pieces } := by
  obtain ⟨n, rfl⟩ : ∃ n, fuel = (run.length + (n + 1)) + 1 := ⟨fuel - run.length - 2, by omega⟩
  have hn : next t.vertices k = some ((run ++ [x]).head (by simp)) := by
    rw [List.cons_append, List.isChain_cons] at hchain
    exact hchain.1 _ (by rw [List.head?_eq_some_head (by simp)]; rfl)
  have hc : List.IsChain (fun e e' => next t.vertices e.1 = some e') (run ++ [x]) := by
    rw [List.cons_append] at hchain
    exact hchain.tail
  have e0 : pushPoint [] P = [P] := by simp [pushPoint]
  rw [follow]
  simp only [hkr, Bool.false_eq_true, if_false, hn, hv, e0, if_pos hk]
  have e1 : isClosed P true [P] pieces ([(P, 0)] ++ [(P, [P].length - 1)]) = .ok (false, [P], pieces) := by
    simp [isClosed]
  simp only [List.getLast?_singleton, e1, Outcome.bind_ok, Bool.false_eq_true, if_false]
  rw [follow_run (P := P) run x hc hrun _ (by simp) (fun k' hk' => hkeys k' (List.mem_filter.1 hk').1)]
  generalize hR : (run.map fun e => e.2.p).foldl pushPoint [P] = R
  have hlast : ∃ q, R.getLast? = some q ∧ q ≠ P := by
    obtain ⟨r, e, rfl⟩ := List.eq_nil_or_concat run |>.resolve_left hne
    rw [List.concat_eq_append, List.map_append, List.foldl_append] at hR
    simp only [List.map_cons, List.map_nil, List.foldl_cons, List.foldl_nil] at hR
    refine ⟨e.2.p, by rw [← hR]; exact pushPoint_last _ _, (hrun e (by simp)).2.2⟩
  obtain ⟨q, hq, hqP⟩ := hlast
  have hpush : pushPoint R P = R ++ [P] := by
    unfold pushPoint
    rw [hq]
    simp [dist2_pos.2 hqP]
  obtain ⟨e, he⟩ := hlink
  have hRne : R ≠ [] := by rintro rfl; simp at hq
  have hlen := List.length_pos_of_ne_nil hRne
  rw [follow]
  simp only [hxr, if_true, he, hx, hpush, if_neg hxs]
  have hd : ∀ k' ∈ keys.filter (fun k' => !decide (k' = k)), k' ≠ x.1 := by
    intro k' hk' e
    exact hxs (e ▸ hkeys k' (List.mem_filter.1 hk').1)
  have hfil : (keys.filter (fun k' => !decide (k' = k))).filter (fun k' => !decide (k' = x.1)) =
      keys.filter (fun k' => !decide (k' = k)) := by
    rw [List.filter_eq_self]
    intro k' hk'
    simp [hd k' hk']
  have e2 : isClosed P true (R ++ [P]) pieces ([(P, 0)] ++ [(P, [P].length - 1)]) = .ok (true, R ++ [P], pieces) := by
    have : 1 < R.length + 1 := by omega
    simp [isClosed, dist2_eq_zero, hlen]
  simp only [List.getLast?_append, List.getLast?_singleton, Option.some_or, e2, Outcome.bind_ok, if_true, hfil]
  exact ⟨_, rfl⟩

/-- C144, the part that holds: an outline that crosses itself once, at a point that passes the test of the program, is
cut at this point into its two loops.  Both are closed, and their signed areas add up to the area of the outline.  The
outline is `z`, `a`, `b`, `c` and back to `z`; the edge that leaves the last vertex of `a` crosses the one that leaves
the last vertex of `b`. -/
theorem C144_one_crossing_partial (selfTurns : List Pt → List Turn) (ring : List Pt) (h3 : 3 ≤ ring.length) (z : Pt)
    (a b c : List Pt) (hring : orient (close ring) = (z :: a) ++ b ++ (c ++ [z]))
    (hchain : List.IsChain (· ≠ ·) ((z :: a) ++ b ++ (c ++ [z]))) (turn : Turn) (hturn : turn.first < turn.second)
    (hself : selfTurns (orient (close ring)) = [turn]) (u v s w : Pt) (hu : (z :: a).getLast? = some u)
    (hv : b.head? = some v) (hs : b.getLast? = some s) (hw : (c ++ [z]).head? = some w) (hi : turn.first = a.length)
    (hj : turn.second = a.length + b.length) (hcross : Crosses (orient (close ring)) turn.first turn.second turn.p)
    (hP : turn.p ∉ (z :: a) ++ b ++ (c ++ [z]))
    (hkept : (0 < dist2 turn.p u ∧ dist2 turn.p u < dist2 u s) ∨ (0 < dist2 turn.p s ∧ dist2 turn.p s < dist2 u s))
    (fuel : ℕ) (hfuel : ring.length + 4 ≤ fuel) :
    let A := turn.p :: b ++ [turn.p]
    let B := turn.p :: (c ++ [z] ++ a) ++ [turn.p]
    correctRing selfTurns fuel ring = .ok (pushRing (pushRing [] A) B) ∧ Closed A ∧ Closed B ∧
      area A + area B = |area (close ring)| := by
  intro A B
  set P := turn.p with hPdef
  have hb : b ≠ [] := by rintro rfl; simp at hv
  have ha : (z :: a) ≠ [] := by simp
  have lb := List.length_pos_of_ne_nil hb
  have hPu : P ≠ u := by
    rintro e
    refine hP (List.mem_append_left _ (List.mem_append_left _ ?_))
    rw [e]; exact List.mem_of_getLast? hu
  have hPs : P ≠ s := by
    rintro e
    refine hP (List.mem_append_left _ (List.mem_append_right _ ?_))
    rw [e]; exact List.mem_of_getLast? hs
  have hk : kept (dist2 P u) (dist2 P s) (dist2 u s) = true := by
    simp only [kept, Bool.or_eq_true, Bool.and_eq_true, decide_eq_true_eq]
    exact hkept
  have lenr : ring.length ≤ a.length + b.length + c.length + 2 ∧ a.length + b.length + c.length + 2 ≤ ring.length + 1 := by
    have e1 : (orient (close ring)).length = (close ring).length := by
      unfold orient; split_ifs <;> simp
    have e2 : ring.length ≤ (close ring).length ∧ (close ring).length ≤ ring.length + 1 := by
      unfold close
      split
      · split_ifs <;> simp
      · simp
    rw [hring] at e1
    simp at e1
    omega
  have hmin : min turn.first turn.second = (z :: a).length - 1 := by
    rw [min_eq_left hturn.le, hi]; simp
  have hmax : max turn.first turn.second = (z :: a).length + b.length - 1 := by
    rw [max_eq_right hturn.le, hj]; simp
  have htab := findIntersections_one (c := c ++ [z]) hu hs hPdef.symm hmin hmax hPu hPs hk
  generalize hii : (z :: a).length - 1 = i at htab
  generalize hjj : (z :: a).length + b.length - 1 = j at htab
  have hij : i < j := by simp at hii hjj; omega
  generalize ht : (⟨_, _⟩ : Table) = t at htab
  have hvert := (congrArg Table.vertices ht).symm
  have hstart : t.starts = [⟨i, dist2 P u, j, false⟩, ⟨j, dist2 P s, i, false⟩] := by rw [← ht]
  simp only at hvert
  have hnd : (t.vertices.map Prod.fst).Nodup := by
    rw [hvert]
    exact nodup_keys hii.symm hjj.symm ha hb (dist2_pos.2 hPu) (dist2_pos.2 hPs) _ _ _ _
  have hlinked := (C144_table_complete _ _ _ htab).2.1
  have notStart : ∀ {off : ℕ} {l : List Pt} {e : Key × Vertex}, e ∈ entries off l → e.1 ∉ t.starts := by
    intro off l e he hs'
    have h0 := (mem_entries he).2.1
    rw [hstart] at hs'
    have p1 := dist2_pos.2 hPu
    have p2 := dist2_pos.2 hPs
    rcases List.mem_cons.1 hs' with h | h
    · rw [h] at h0; simp at h0; linarith
    · rw [List.mem_singleton.1 h] at h0; simp at h0; linarith
  have notStartR : ∀ (x y : ℕ) (o : ℚ), (⟨x, o, y, true⟩ : Key) ∉ t.starts := by
    intro x y o h
    rw [hstart] at h
    simp at h
  -- first loop
  obtain ⟨s1, f1⟩ := follow_loop (t := t) (P := P) (k := ⟨i, dist2 P u, j, false⟩) (v := { p := P })
    (x := (⟨j, dist2 P s, i, true⟩, ⟨P, ⟨i, dist2 P u, j, false⟩⟩)) (run := entries (z :: a).length b) rfl rfl
    (by rw [hstart]; simp) rfl rfl (notStartR _ _ _)
    (by
      obtain ⟨e, he, _⟩ := hlinked (⟨j, dist2 P s, i, true⟩, ⟨P, ⟨i, dist2 P u, j, false⟩⟩) (by rw [hvert]; simp) rfl
      exact ⟨e, he⟩)
    (by
      intro h
      have := entries_points (z :: a).length b
      rw [h] at this
      exact hb this.symm)
    (chain_next (pre := entries 0 (z :: a) ++
        [(⟨i, dist2 P u, j, true⟩, ⟨P, ⟨j, dist2 P s, i, false⟩⟩)])
      (suf := (⟨j, dist2 P s, i, false⟩, { p := P }) :: entries ((z :: a).length + b.length) (c ++ [z]))
      (by rw [hvert]; simp) hnd)
    (fun e he => ⟨(mem_entries he).1, notStart he, fun h => hP (by
      rw [← h]
      exact List.mem_append_left _ (List.mem_append_right _ (mem_entries he).2.2.2.2.2))⟩)
    t.starts (fun _ h => h) [] fuel (by simp [entries]; omega)
  -- second loop
  have hz : (entries ((z :: a).length + b.length) (c ++ [z]) ++ entries 0 (z :: a)) ≠ [] := by
    rw [entries_cons]; simp
  have chain2 : List.IsChain (fun e e' => next t.vertices e.1 = some e')
      (((⟨j, dist2 P s, i, false⟩ : Key), ({ p := P } : Vertex)) ::
        (entries ((z :: a).length + b.length) (c ++ [z]) ++ entries 0 (z :: a)) ++
        [(⟨i, dist2 P u, j, true⟩, ⟨P, ⟨j, dist2 P s, i, false⟩⟩)]) := by
    have c1 : List.IsChain (fun e e' => next t.vertices e.1 = some e')
        (((⟨j, dist2 P s, i, false⟩ : Key), ({ p := P } : Vertex)) ::
          entries ((z :: a).length + b.length) (c ++ [z])) :=
      chain_next (pre := entries 0 (z :: a) ++ (⟨i, dist2 P u, j, true⟩, ⟨P, ⟨j, dist2 P s, i, false⟩⟩) ::
        (⟨i, dist2 P u, j, false⟩, { p := P }) :: (entries (z :: a).length b ++
        [(⟨j, dist2 P s, i, true⟩, ⟨P, ⟨i, dist2 P u, j, false⟩⟩)])) (suf := []) (by rw [hvert]; simp) hnd
    have c2 : List.IsChain (fun e e' => next t.vertices e.1 = some e')
        (entries 0 (z :: a) ++ [(⟨i, dist2 P u, j, true⟩, ⟨P, ⟨j, dist2 P s, i, false⟩⟩)]) :=
      chain_next (pre := []) (suf := (⟨i, dist2 P u, j, false⟩, { p := P }) :: (entries (z :: a).length b ++
        (⟨j, dist2 P s, i, true⟩, ⟨P, ⟨i, dist2 P u, j, false⟩⟩) :: (⟨j, dist2 P s, i, false⟩, { p := P }) ::
        entries ((z :: a).length + b.length) (c ++ [z]))) (by rw [hvert]; simp) hnd
    have := List.isChain_append.2 ⟨c1, c2, ?_⟩
    · simpa using this
    · intro e he e' he'
      rw [entries_append] at he
      rw [entries_cons] at he'
      simp only [entries_cons ((z :: a).length + b.length + c.length), entries, List.zipIdx_nil, List.map_nil] at he
      have he1 : e = (⟨(z :: a).length + b.length + c.length, 0, (z :: a).length + b.length + c.length, false⟩,
          { p := z }) := by
        rw [← List.cons_append, List.getLast?_append] at he
        simp at he
        exact he.symm
      have he2 : e' = (⟨0, 0, 0, false⟩, { p := z }) := by
        simp at he'
        exact he'.symm
      have hd : t.vertices = (entries 0 (z :: a) ++ (⟨i, dist2 P u, j, true⟩, ⟨P, ⟨j, dist2 P s, i, false⟩⟩) ::
        (⟨i, dist2 P u, j, false⟩, { p := P }) :: (entries (z :: a).length b ++
        (⟨j, dist2 P s, i, true⟩, ⟨P, ⟨i, dist2 P u, j, false⟩⟩) :: (⟨j, dist2 P s, i, false⟩, { p := P }) ::
          entries ((z :: a).length + b.length) c)) ++ [e] := by
        rw [hvert, entries_append, he1]
        simp [entries]
      rw [next_last hd]
      · rw [hvert, entries_cons, he2]; simp
      · intro f hf hfe
        rw [hd, List.map_append, List.nodup_append] at hnd
        exact hnd.2.2 _ (List.mem_map_of_mem hf) _ (by simp) hfe
  have keys2 : (t.starts.filter fun k' => !decide (k' = (⟨i, dist2 P u, j, false⟩ : Key))) =
      [⟨j, dist2 P s, i, false⟩] := by
    rw [hstart]
    have : (⟨j, dist2 P s, i, false⟩ : Key) ≠ ⟨i, dist2 P u, j, false⟩ := by
      intro h
      have := congrArg Key.index1 h
      simp at this
      omega
    simp [this]
  obtain ⟨s2, f2⟩ := follow_loop (t := t) (P := P) (k := ⟨j, dist2 P s, i, false⟩) (v := { p := P })
    (x := (⟨i, dist2 P u, j, true⟩, ⟨P, ⟨j, dist2 P s, i, false⟩⟩))
    (run := entries ((z :: a).length + b.length) (c ++ [z]) ++ entries 0 (z :: a)) rfl rfl
    (by rw [hstart]; simp) rfl rfl (notStartR _ _ _)
    (by
      obtain ⟨e, he, _⟩ := hlinked (⟨i, dist2 P u, j, true⟩, ⟨P, ⟨j, dist2 P s, i, false⟩⟩) (by rw [hvert]; simp) rfl
      exact ⟨e, he⟩) hz chain2
    (fun e he => by
      rcases List.mem_append.1 he with he | he
      · exact ⟨(mem_entries he).1, notStart he, fun h => hP (by
          rw [← h]; exact List.mem_append_right _ (mem_entries he).2.2.2.2.2)⟩
      · exact ⟨(mem_entries he).1, notStart he, fun h => hP (by
          rw [← h]; exact List.mem_append_left _ (List.mem_append_left _ (mem_entries he).2.2.2.2.2))⟩)
    [⟨j, dist2 P s, i, false⟩] (by rw [hstart]; simp)
    (pushRing [] ((entries (z :: a).length b).map (fun e => e.2.p) |>.foldl pushPoint [P] |>.append [P])) fuel
    (by simp [entries]; omega)
  -- the pieces
  have p1 : ((entries (z :: a).length b).map fun e => e.2.p).foldl pushPoint [P] = P :: b := by
    rw [entries_points, foldl_pushPoint (by simp)]
    · rfl
    · have hb' : List.IsChain (· ≠ ·) b := (List.isChain_append.1 (List.isChain_append.1 hchain).1).2.1
      rw [List.singleton_append, List.isChain_cons]
      refine ⟨fun y hy e => hP ?_, hb'⟩
      rw [e]
      exact List.mem_append_left _ (List.mem_append_right _ (List.mem_of_head? hy))
  have p2 : ((entries ((z :: a).length + b.length) (c ++ [z]) ++ entries 0 (z :: a)).map fun e => e.2.p).foldl
      pushPoint [P] = P :: (c ++ [z] ++ a) := by
    rw [List.map_append, entries_points, entries_points, List.foldl_append]
    have hc' : List.IsChain (· ≠ ·) ([P] ++ (c ++ [z])) := by
      rw [List.singleton_append, List.isChain_cons]
      refine ⟨fun y hy e => hP ?_, (List.isChain_append.1 hchain).2.1⟩
      rw [e]
      exact List.mem_append_right _ (List.mem_of_head? hy)
    rw [foldl_pushPoint (by simp) hc', List.foldl_cons]
    have ez : pushPoint ([P] ++ (c ++ [z])) z = [P] ++ (c ++ [z]) := by
      unfold pushPoint
      have : ([P] ++ (c ++ [z])).getLast? = some z := by
        exact last_concat P c z
      rw [this]
      simp [dist2]
    rw [ez, foldl_pushPoint (by simp)]
    · simp
    · have ha' : List.IsChain (· ≠ ·) (z :: a) := (List.isChain_append.1 (List.isChain_append.1 hchain).1).1
      rw [List.isChain_append]
      refine ⟨hc', ha'.tail, ?_⟩
      intro x hx y hy
      obtain rfl : z = x := by
        have := last_concat P c z
        rw [show P :: c ++ [z] = [P] ++ (c ++ [z]) by simp] at this
        exact Option.some.inj (this.symm.trans hx)
      rw [List.isChain_cons] at ha'
      exact ha'.1 y hy
  refine ⟨?_, ⟨by simp [A], (last_concat _ _ _).symm⟩, ⟨by simp [B], (last_concat _ _ _).symm⟩, ?_⟩
  · unfold correctRing
    rw [if_neg (by omega)]
    simp only [hself]
    rw [hring, htab]
    simp only [Outcome.bind_ok]
    obtain ⟨n, rfl⟩ : ∃ n, fuel = n + 2 := ⟨fuel - 2, by omega⟩
    have g1 : find ⟨i, dist2 P u, j, false⟩ t.vertices = some (⟨i, dist2 P u, j, false⟩, { p := P }) := by
      have := find_mid (pre := entries 0 (z :: a) ++ [(⟨i, dist2 P u, j, true⟩, ⟨P, ⟨j, dist2 P s, i, false⟩⟩)])
        (e := ((⟨i, dist2 P u, j, false⟩ : Key), ({ p := P } : Vertex)))
        (suf := (entries (z :: a).length b ++
        (⟨j, dist2 P s, i, true⟩, ⟨P, ⟨i, dist2 P u, j, false⟩⟩) :: (⟨j, dist2 P s, i, false⟩, { p := P }) ::
          entries ((z :: a).length + b.length) (c ++ [z]))) ?_
      · rw [hvert]; simpa using this
      · intro f hf hfe
        have hnd' := hnd
        rw [hvert, show ∀ (l m : List (Key × Vertex)) (x : Key × Vertex), l ++ x :: m = (l ++ [x]) ++ m by simp,
          List.map_append, List.nodup_append] at hnd'
        exact hnd'.2.2 _ (List.mem_map_of_mem hf) _ (by simp) hfe
    have g2 : find ⟨j, dist2 P s, i, false⟩ t.vertices = some (⟨j, dist2 P s, i, false⟩, { p := P }) := by
      have := find_mid (pre := entries 0 (z :: a) ++ (⟨i, dist2 P u, j, true⟩, ⟨P, ⟨j, dist2 P s, i, false⟩⟩) ::
        (⟨i, dist2 P u, j, false⟩, { p := P }) :: (entries (z :: a).length b ++
        [(⟨j, dist2 P s, i, true⟩, ⟨P, ⟨i, dist2 P u, j, false⟩⟩)]))
        (e := ((⟨j, dist2 P s, i, false⟩ : Key), ({ p := P } : Vertex)))
        (suf := entries ((z :: a).length + b.length) (c ++ [z])) ?_
      · rw [hvert]; simpa using this
      · intro f hf hfe
        have e : t.vertices = (entries 0 (z :: a) ++ (⟨i, dist2 P u, j, true⟩, ⟨P, ⟨j, dist2 P s, i, false⟩⟩) ::
          (⟨i, dist2 P u, j, false⟩, { p := P }) :: (entries (z :: a).length b ++
          [(⟨j, dist2 P s, i, true⟩, ⟨P, ⟨i, dist2 P u, j, false⟩⟩)])) ++
          ((⟨j, dist2 P s, i, false⟩, { p := P }) :: entries ((z :: a).length + b.length) (c ++ [z])) := by
          rw [hvert]; simp
        rw [e, List.map_append, List.nodup_append] at hnd
        exact hnd.2.2 _ (List.mem_map_of_mem hf) _ (by simp) hfe
    rw [show t.starts = ⟨i, dist2 P u, j, false⟩ :: [⟨j, dist2 P s, i, false⟩] from hstart]
    simp only [generate, g1]
    rw [hstart] at f1 keys2
    rw [f1, Outcome.bind_ok]
    simp only [keys2, p1, generate, g2]
    rw [p1] at f2
    simp only [List.append_eq] at f2
    rw [f2, Outcome.bind_ok]
    simp only [p2, decide_true, Bool.not_true, List.filter_cons, Bool.false_eq_true, if_false, List.filter_nil]
    simp only [generate]
    rfl
  · rw [← area_orient, hring]
    obtain ⟨p, q, c', d, e1, e2, e3, e4, ⟨σ, -, -, x1, y1⟩, ⟨τ, -, -, x2, y2⟩⟩ := hcross
    rw [hring] at e1 e2 e3 e4
    have hp : p = u := by
      rw [hi, List.append_assoc, List.getElem?_append_left (by simp)] at e1
      rw [List.getLast?_eq_getElem?] at hu
      simp only [List.length_cons, Nat.add_sub_cancel] at hu
      rw [hu] at e1
      exact (Option.some.inj e1).symm
    have hq : q = v := by
      rw [hi, List.append_assoc, List.getElem?_append_right (by simp), List.getElem?_append_left (by simp; omega)] at e2
      simp only [List.length_cons, Nat.sub_self] at e2
      rw [List.head?_eq_getElem?] at hv
      rw [hv] at e2
      exact (Option.some.inj e2).symm
    have hc : c' = s := by
      rw [hj, List.getElem?_append_left (by simp), List.getElem?_append_right (by simp; omega)] at e3
      simp only [List.length_cons] at e3
      rw [List.getLast?_eq_getElem?] at hs
      rw [show a.length + b.length - (a.length + 1) = b.length - 1 by omega, hs] at e3
      exact (Option.some.inj e3).symm
    have hd : d = w := by
      rw [hj, List.getElem?_append_right (by simp)] at e4
      simp only [List.length_cons, List.length_append] at e4
      rw [List.head?_eq_getElem?] at hw
      rw [show a.length + b.length + 1 - (a.length + 1 + b.length) = 0 by omega, hw] at e4
      exact (Option.some.inj e4).symm
    subst hp hq hc hd
    have k1 := edge_split (u := p) (v := q) (P := P) (by rw [x1, y1]; ring)
    have k2 := edge_split (u := c') (v := d) (P := P) (by rw [x2, y2]; ring)
    have la : (c ++ z :: a).getLast? = some p := by
      rw [List.getLast?_append, hu]; rfl
    have hh : (c ++ z :: a).head? = some d := by
      rw [List.head?_append] at hw ⊢
      exact hw
    rw [show A = P :: b ++ [P] from rfl, show B = P :: (c ++ [z] ++ a) ++ [P] from rfl, area_closed, area_closed,
      show z :: a ++ b ++ (c ++ [z]) = z :: (a ++ b ++ c) ++ [z] by simp, area_closed,
      show z :: (a ++ b ++ c) ++ [z] = z :: a ++ b ++ (c ++ [z]) by simp]
    rw [show P :: b ++ [P] = [P] ++ b ++ [P] from rfl, show P :: (c ++ [z] ++ a) ++ [P] = [P] ++ (c ++ z :: a) ++ [P] by simp]
    rw [edgeSum_glue (x := c') (y := P) (by rw [List.getLast?_append, hs]; rfl) rfl, edgeSum_glue (l := [P]) (x := P) rfl hv,
      edgeSum_glue (x := p) (y := P) (by rw [List.getLast?_append, la]; rfl) rfl, edgeSum_glue (l := [P]) (x := P) rfl hh,
      edgeSum_glue (l := z :: a ++ b) (by rw [List.getLast?_append, hs]; rfl) hw, edgeSum_glue hu hv, edgeSum_join c a z,
      k1, k2]
    have e0 : edgeSum [P] = 0 := rfl
    rw [e0]
    ring

/-- Such an outline: a triangle, and a smaller one on the other side of the crossing. -/
def bowTie : List Pt := [(0, 0), (3, 3), (3, 0), (0, 1), (0, 0)]

example : orient (close bowTie) = [(0, 0)] ++ [(3, 3), (3, 0)] ++ ([(0, 1)] ++ [(0, 0)]) ∧
    Crosses (orient (close bowTie)) 0 2 (3 / 4, 3 / 4) ∧
    (0 < dist2 (3 / 4, 3 / 4) (0, 0) ∧ dist2 (3 / 4, 3 / 4) (0, 0) < dist2 (0, 0) (3, 0)) ∧
    correctRing (fun _ => [⟨(3 / 4, 3 / 4), 0, 2⟩]) 9 bowTie =
      .ok [([(3 / 4, 3 / 4), (3, 3), (3, 0), (3 / 4, 3 / 4)], 27 / 8),
        ([(3 / 4, 3 / 4), (0, 1), (0, 0), (3 / 4, 3 / 4)], -3 / 8)] := by
  have e : orient (close bowTie) = [(0, 0), (3, 3), (3, 0), (0, 1), (0, 0)] := by decide +kernel
  refine ⟨e, ?_, by decide +kernel, by decide +kernel⟩
  rw [e]
  exact ⟨(0, 0), (3, 3), (3, 0), (0, 1), rfl, rfl, rfl, rfl, ⟨1 / 4, by norm_num, by norm_num, by norm_num, by norm_num⟩,
    ⟨3 / 4, by norm_num, by norm_num, by norm_num, by norm_num⟩⟩

/-- An outline with five edges, two of which cross. -/
def dart : List Pt := [(1, 5), (5, 4), (3, 0), (5, 3), (3, 1), (1, 5)]

theorem dart_crossings : AllCrossings dart [⟨(4, 2), 1, 3⟩] := by
  refine ⟨by simp, fun t => ⟨fun h => ?_, ?_⟩⟩
  · obtain rfl : t = ⟨(4, 2), 1, 3⟩ := by simpa using h
    exact ⟨by norm_num, (5, 4), (3, 0), (5, 3), (3, 1), rfl, rfl, rfl, rfl,
      ⟨1 / 2, by norm_num, by norm_num, by norm_num, by norm_num⟩,
      ⟨1 / 2, by norm_num, by norm_num, by norm_num, by norm_num⟩⟩
  · obtain ⟨⟨x, y⟩, i, j⟩ := t
    rintro ⟨hij, a, b, c, d, e1, e2, e3, e4, ⟨s, s0, s1, x1, y1⟩, ⟨u, u0, u1, x2, y2⟩⟩
    have hj : j + 1 < 6 := (List.getElem?_eq_some_iff.1 e4).1
    simp only at hij hj e1 e2 e3 e4 x1 y1 x2 y2
    have hj' : j < 5 := by omega
    interval_cases j <;> interval_cases i <;>
      (simp only [dart, List.getElem?_cons_zero, List.getElem?_cons_succ, Option.some.injEq] at e1 e2 e3 e4
       subst e1 e2 e3 e4
       norm_num at x1 y1 x2 y2
       first
       | (exfalso; linarith)
       | (have hx : x = 4 := by linarith
          have hy : y = 2 := by linarith
          simp [hx, hy]))

/-- C144 is false: an outline with one crossing, which the test drops because it is further from the starts of both
edges than they are from each other.  The repair returns the outline unchanged, and it still crosses itself. -/
theorem C144_dropped_false :
    AllCrossings dart [⟨(4, 2), 1, 3⟩] ∧
    ∀ fuel, correctRing (fun _ => [⟨(4, 2), 1, 3⟩]) fuel dart = .ok [(dart, area dart)] ∧ 0 < area dart ∧
      Crosses dart 1 3 (4, 2) := by
  refine ⟨dart_crossings, fun fuel => ⟨?_, by decide +kernel, ?_⟩⟩
  · have e : orient (close dart) = dart := by decide +kernel
    have e' : findIntersections dart [⟨(4, 2), 1, 3⟩] = .ok
        { vertices := entries 0 dart, starts := [] } := by decide +kernel
    unfold correctRing
    rw [if_neg (by decide)]
    simp only [e, e', Outcome.bind_ok]
    rw [if_pos (by decide +kernel)]
  · exact ((dart_crossings.2 ⟨(4, 2), 1, 3⟩).1 (by simp)).2

/-- A star with five branches. -/
def star : List Pt := [(3, 4), (2, 0), (0, 4), (4, 2), (1, 0), (3, 4)]

/-- Its crossings. -/
def starTurns : List Turn :=
  [⟨(8 / 3, 8 / 3), 0, 2⟩, ⟨(11 / 5, 4 / 5), 0, 3⟩, ⟨(7 / 4, 1 / 2), 1, 3⟩, ⟨(3 / 2, 1), 1, 4⟩, ⟨(12 / 5, 14 / 5), 2, 4⟩]

theorem star_crossings : AllCrossings star starTurns := by
  refine ⟨by decide +kernel, fun t => ⟨fun h => ?_, ?_⟩⟩
  · simp only [starTurns, List.mem_cons, List.not_mem_nil, or_false] at h
    rcases h with rfl | rfl | rfl | rfl | rfl
    · exact ⟨by norm_num, _, _, _, _, rfl, rfl, rfl, rfl, ⟨1 / 3, by norm_num, by norm_num, by norm_num, by norm_num⟩,
        ⟨2 / 3, by norm_num, by norm_num, by norm_num, by norm_num⟩⟩
    · exact ⟨by norm_num, _, _, _, _, rfl, rfl, rfl, rfl, ⟨4 / 5, by norm_num, by norm_num, by norm_num, by norm_num⟩,
        ⟨3 / 5, by norm_num, by norm_num, by norm_num, by norm_num⟩⟩
    · exact ⟨by norm_num, _, _, _, _, rfl, rfl, rfl, rfl, ⟨1 / 8, by norm_num, by norm_num, by norm_num, by norm_num⟩,
        ⟨3 / 4, by norm_num, by norm_num, by norm_num, by norm_num⟩⟩
    · exact ⟨by norm_num, _, _, _, _, rfl, rfl, rfl, rfl, ⟨1 / 4, by norm_num, by norm_num, by norm_num, by norm_num⟩,
        ⟨1 / 4, by norm_num, by norm_num, by norm_num, by norm_num⟩⟩
    · exact ⟨by norm_num, _, _, _, _, rfl, rfl, rfl, rfl, ⟨3 / 5, by norm_num, by norm_num, by norm_num, by norm_num⟩,
        ⟨7 / 10, by norm_num, by norm_num, by norm_num, by norm_num⟩⟩
  · obtain ⟨⟨x, y⟩, i, j⟩ := t
    rintro ⟨hij, a, b, c, d, e1, e2, e3, e4, ⟨s, s0, s1, x1, y1⟩, ⟨u, u0, u1, x2, y2⟩⟩
    have hj : j + 1 < 6 := (List.getElem?_eq_some_iff.1 e4).1
    simp only at hij hj e1 e2 e3 e4 x1 y1 x2 y2
    have hj' : j < 5 := by omega
    interval_cases j <;> interval_cases i <;>
      (simp only [star, List.getElem?_cons_zero, List.getElem?_cons_succ, Option.some.injEq] at e1 e2 e3 e4
       subst e1 e2 e3 e4
       norm_num at x1 y1 x2 y2
       first
       | (exfalso; linarith)
       | (have hx : x = 8 / 3 := by linarith
          have hy : y = 8 / 3 := by linarith
          simp [hx, hy, starTurns])
       | (have hx : x = 11 / 5 := by linarith
          have hy : y = 4 / 5 := by linarith
          simp [hx, hy, starTurns])
       | (have hx : x = 7 / 4 := by linarith
          have hy : y = 1 / 2 := by linarith
          simp [hx, hy, starTurns])
       | (have hx : x = 3 / 2 := by linarith
          have hy : y = 1 := by linarith
          simp [hx, hy, starTurns])
       | (have hx : x = 12 / 5 := by linarith
          have hy : y = 14 / 5 := by linarith
          simp [hx, hy, starTurns]))

/-- C144 is false: one of the five crossings of a star is dropped, and the areas of the loops do not add up to the area
of the star. -/
theorem C144_area_false :
    AllCrossings star starTurns ∧ orient (close star) = star ∧ area star = 7 ∧
    ∃ pieces, correctRing (fun _ => starTurns) 30 star = .ok pieces ∧ (pieces.map fun p => area p.1).sum = 171 / 20 := by
  refine ⟨star_crossings, by decide +kernel, by decide +kernel, ?_⟩
  cases h : correctRing (fun _ => starTurns) 30 star with
  | ok pieces =>
    refine ⟨pieces, rfl, ?_⟩
    have : (correctRing (fun _ => starTurns) 30 star).map (fun l => (l.map fun p => area p.1).sum) =
        .ok (171 / 20) := by decide +kernel
    rw [h] at this
    exact Outcome.ok.inj this
  | _ =>
    have : (correctRing (fun _ => starTurns) 30 star).map (fun l => (l.map fun p => area p.1).sum) =
        .ok (171 / 20) := by decide +kernel
    rw [h] at this
    cases this

/-- An outline with six edges. -/
def hexagon : List Pt := [(3, 3), (1, 0), (0, 3), (1, 1), (2, 1), (0, 2), (3, 3)]

/-- Its crossings. -/
def hexagonTurns : List Turn :=
  [⟨(5 / 3, 1), 0, 3⟩, ⟨(7 / 4, 9 / 8), 0, 4⟩, ⟨(2 / 5, 9 / 5), 1, 4⟩, ⟨(3 / 10, 21 / 10), 1, 5⟩, ⟨(2 / 3, 5 / 3), 2, 4⟩,
    ⟨(3 / 7, 15 / 7), 2, 5⟩]

theorem hexagon_crossings : AllCrossings hexagon hexagonTurns := by
  refine ⟨by decide +kernel, fun t => ⟨fun h => ?_, ?_⟩⟩
  · simp only [hexagonTurns, List.mem_cons, List.not_mem_nil, or_false] at h
    rcases h with rfl | rfl | rfl | rfl | rfl | rfl
    · exact ⟨by norm_num, _, _, _, _, rfl, rfl, rfl, rfl, ⟨2 / 3, by norm_num, by norm_num, by norm_num, by norm_num⟩,
        ⟨2 / 3, by norm_num, by norm_num, by norm_num, by norm_num⟩⟩
    · exact ⟨by norm_num, _, _, _, _, rfl, rfl, rfl, rfl, ⟨5 / 8, by norm_num, by norm_num, by norm_num, by norm_num⟩,
        ⟨1 / 8, by norm_num, by norm_num, by norm_num, by norm_num⟩⟩
    · exact ⟨by norm_num, _, _, _, _, rfl, rfl, rfl, rfl, ⟨3 / 5, by norm_num, by norm_num, by norm_num, by norm_num⟩,
        ⟨4 / 5, by norm_num, by norm_num, by norm_num, by norm_num⟩⟩
    · exact ⟨by norm_num, _, _, _, _, rfl, rfl, rfl, rfl, ⟨7 / 10, by norm_num, by norm_num, by norm_num, by norm_num⟩,
        ⟨1 / 10, by norm_num, by norm_num, by norm_num, by norm_num⟩⟩
    · exact ⟨by norm_num, _, _, _, _, rfl, rfl, rfl, rfl, ⟨2 / 3, by norm_num, by norm_num, by norm_num, by norm_num⟩,
        ⟨2 / 3, by norm_num, by norm_num, by norm_num, by norm_num⟩⟩
    · exact ⟨by norm_num, _, _, _, _, rfl, rfl, rfl, rfl, ⟨3 / 7, by norm_num, by norm_num, by norm_num, by norm_num⟩,
        ⟨1 / 7, by norm_num, by norm_num, by norm_num, by norm_num⟩⟩
  · obtain ⟨⟨x, y⟩, i, j⟩ := t
    rintro ⟨hij, a, b, c, d, e1, e2, e3, e4, ⟨s, s0, s1, x1, y1⟩, ⟨u, u0, u1, x2, y2⟩⟩
    have hj : j + 1 < 7 := (List.getElem?_eq_some_iff.1 e4).1
    simp only at hij hj e1 e2 e3 e4 x1 y1 x2 y2
    have hj' : j < 6 := by omega
    interval_cases j <;> interval_cases i <;>
      (simp only [hexagon, List.getElem?_cons_zero, List.getElem?_cons_succ, Option.some.injEq] at e1 e2 e3 e4
       subst e1 e2 e3 e4
       norm_num at x1 y1 x2 y2
       first
       | (exfalso; linarith)
       | (have hx : x = 5 / 3 := by linarith
          have hy : y = 1 := by linarith
          simp [hx, hy, hexagonTurns])
       | (have hx : x = 7 / 4 := by linarith
          have hy : y = 9 / 8 := by linarith
          simp [hx, hy, hexagonTurns])
       | (have hx : x = 2 / 5 := by linarith
          have hy : y = 9 / 5 := by linarith
          simp [hx, hy, hexagonTurns])
       | (have hx : x = 3 / 10 := by linarith
          have hy : y = 21 / 10 := by linarith
          simp [hx, hy, hexagonTurns])
       | (have hx : x = 2 / 3 := by linarith
          have hy : y = 5 / 3 := by linarith
          simp [hx, hy, hexagonTurns])
       | (have hx : x = 3 / 7 := by linarith
          have hy : y = 15 / 7 := by linarith
          simp [hx, hy, hexagonTurns]))

/-- C144 is false: the repair of this outline reads the last point of the loop after it removed it. -/
theorem C144_dangling_false :
    AllCrossings hexagon hexagonTurns ∧ orient (close hexagon) = hexagon ∧
    correctRing (fun _ => hexagonTurns) 60 hexagon = .ub :=
  ⟨hexagon_crossings, by decide +kernel, by decide +kernel⟩

end RgbdSlam.PolygonRepair
