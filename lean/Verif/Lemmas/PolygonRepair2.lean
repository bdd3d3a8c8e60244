import Mathlib.Data.List.Chain
import Verif.Lemmas.PolygonRepair
/- The repair of an outline that crosses itself once. -/
namespace RgbdSlam.PolygonRepair

/-- The entries of the table for a list of vertices, the first of which has the number `off`. -/
def entries (off : ℕ) (l : List Pt) : List (Key × Vertex) :=
  (l.zipIdx off).map fun e => (⟨e.2, 0, e.2, false⟩, { p := e.1 })

theorem entries_cons (off : ℕ) (x : Pt) (l : List Pt) :
    entries off (x :: l) = (⟨off, 0, off, false⟩, { p := x }) :: entries (off + 1) l := by
  simp [entries, List.zipIdx_cons]

theorem entries_append (off : ℕ) (l m : List Pt) :
    entries off (l ++ m) = entries off l ++ entries (off + l.length) m := by
  simp [entries, List.zipIdx_append]

theorem entries_points (off : ℕ) (l : List Pt) : (entries off l).map (fun e => e.2.p) = l := by
  induction l generalizing off with
  | nil => rfl
  | cons x l ih => rw [entries_cons, List.map_cons, ih]

theorem mem_entries {off : ℕ} {l : List Pt} {e : Key × Vertex} (h : e ∈ entries off l) :
    e.1.reroute = false ∧ e.1.scale = 0 ∧ off ≤ e.1.index1 ∧ e.1.index1 < off + l.length ∧ e.1.index2 = e.1.index1 ∧
      e.2.p ∈ l := by
  induction l generalizing off with
  | nil => cases h
  | cons x l ih =>
    rw [entries_cons] at h
    rcases List.mem_cons.1 h with rfl | h
    · simp
    · obtain ⟨h1, h2, h3, h4, h5, h6⟩ := ih h
      exact ⟨h1, h2, by omega, by simp only [List.length_cons]; omega, h5, List.mem_cons_of_mem _ h6⟩

theorem emplace_append {k : Key} {v : Vertex} {pre suf : List (Key × Vertex)}
    (h : ∀ e ∈ pre, k.less e.1 = false ∧ e.1.less k = true) :
    emplace k v (pre ++ suf) = pre ++ emplace k v suf := by
  induction pre with
  | nil => rfl
  | cons a pre ih =>
    have ha := h a List.mem_cons_self
    rw [List.cons_append, emplace, ha.1, ha.2, ih fun e he => h e (List.mem_cons_of_mem _ he)]
    simp

theorem emplace_front {k : Key} {v : Vertex} {suf : List (Key × Vertex)} (h : ∀ e ∈ suf, k.less e.1 = true) :
    emplace k v suf = (k, v) :: suf := by
  cases suf with
  | nil => rfl
  | cons a l => rw [emplace, h a List.mem_cons_self]; simp

theorem foldl_entries (l : List Pt) (off : ℕ) (pre : List (Key × Vertex)) (h : ∀ e ∈ pre, e.1.index1 < off) :
    (l.zipIdx off).foldl (fun vs e => emplace ⟨e.2, 0, e.2, false⟩ { p := e.1 } vs) pre = pre ++ entries off l := by
  induction l generalizing off pre with
  | nil => simp [entries]
  | cons x l ih =>
    rw [List.zipIdx_cons, List.foldl_cons, ih (off + 1), entries_cons]
    · have := emplace_append (k := ⟨off, 0, off, false⟩) (v := { p := x }) (pre := pre) (suf := []) (fun e he => by
        have := h e he
        constructor
        · simp only [Key.less]; rw [if_neg (by omega), if_pos this]
        · simp only [Key.less]; rw [if_pos this])
      rw [List.append_nil] at this
      rw [this]
      simp [emplace]
    · intro e he
      rcases mem_of_emplace he with rfl | he
      · exact Nat.lt_succ_self _
      · exact Nat.lt_succ_of_lt (h e he)

/-- The table of an outline with one intersection. -/
theorem findIntersections_one {a b c : List Pt} {P u s : Pt} (hu : a.getLast? = some u) (hs : b.getLast? = some s)
    {turn : Turn} (hp : turn.p = P) (hi : min turn.first turn.second = a.length - 1)
    (hj : max turn.first turn.second = a.length + b.length - 1) (hPu : P ≠ u) (hPs : P ≠ s)
    (hk : kept (dist2 P u) (dist2 P s) (dist2 u s) = true) :
    findIntersections (a ++ b ++ c) [turn] = .ok
      { vertices := entries 0 a ++ (⟨a.length - 1, dist2 P u, a.length + b.length - 1, true⟩,
            ⟨P, ⟨a.length + b.length - 1, dist2 P s, a.length - 1, false⟩⟩) ::
          (⟨a.length - 1, dist2 P u, a.length + b.length - 1, false⟩, { p := P }) ::
          (entries a.length b ++ (⟨a.length + b.length - 1, dist2 P s, a.length - 1, true⟩,
            ⟨P, ⟨a.length - 1, dist2 P u, a.length + b.length - 1, false⟩⟩) ::
          (⟨a.length + b.length - 1, dist2 P s, a.length - 1, false⟩, { p := P }) ::
          entries (a.length + b.length) c)
        starts := [⟨a.length - 1, dist2 P u, a.length + b.length - 1, false⟩,
          ⟨a.length + b.length - 1, dist2 P s, a.length - 1, false⟩] } := by
  have ha : a ≠ [] := by rintro rfl; simp at hu
  have hb : b ≠ [] := by rintro rfl; simp at hs
  have la := List.length_pos_of_ne_nil ha
  have lb := List.length_pos_of_ne_nil hb
  have g1 : (a ++ b ++ c)[a.length - 1]? = some u := by
    rw [List.append_assoc, List.getElem?_append_left (by omega), ← List.getLast?_eq_getElem?, hu]
  have g2 : (a ++ b ++ c)[a.length + b.length - 1]? = some s := by
    rw [List.getElem?_append_left (by simp; omega), List.getElem?_append_right (by omega),
      show a.length + b.length - 1 - a.length = b.length - 1 by omega, ← List.getLast?_eq_getElem?, hs]
  have d1 : 0 < dist2 P u := dist2_pos.2 hPu
  have d2 : 0 < dist2 P s := dist2_pos.2 hPs
  set i := a.length - 1 with hi'
  set j := a.length + b.length - 1 with hj'
  have hij : i < j := by omega
  unfold findIntersections
  simp only [List.foldl_cons, List.foldl_nil, Outcome.bind_ok]
  rw [foldl_entries _ 0 [] (fun e he => by cases he), List.nil_append]
  unfold addTurn
  simp only [hi, hj, hp, g1, g2, hk, if_true]
  have e0 : entries 0 (a ++ b ++ c) = entries 0 a ++ (entries a.length b ++ entries (a.length + b.length) c) := by
    rw [entries_append, entries_append, List.append_assoc]; simp
  have A : ∀ e ∈ entries 0 a, ∀ r, Key.less ⟨i, dist2 P u, j, r⟩ e.1 = false ∧
      e.1.less ⟨i, dist2 P u, j, r⟩ = true := by
    intro e he r
    obtain ⟨h1, h2, h3, h4, h5, -⟩ := mem_entries he
    have : e.1.index1 < i ∨ e.1.index1 = i := by omega
    rcases this with h | h
    · constructor
      · simp only [Key.less]; rw [if_neg (by omega), if_pos h]
      · simp only [Key.less]; rw [if_pos h]
    · constructor
      · simp only [Key.less]
        rw [if_neg (by omega), if_neg (by omega), if_neg (by rw [h2]; exact not_lt.2 d1.le), if_pos (by rw [h2]; exact d1)]
      · simp only [Key.less]
        rw [if_neg (by omega), if_neg (by omega), if_pos (by rw [h2]; exact d1)]
  have A' : ∀ e ∈ entries 0 a, ∀ r o k, Key.less ⟨j, o, k, r⟩ e.1 = false ∧ e.1.less ⟨j, o, k, r⟩ = true := by
    intro e he r o k
    obtain ⟨h1, h2, h3, h4, h5, -⟩ := mem_entries he
    have h : e.1.index1 < j := by omega
    constructor
    · simp only [Key.less]; rw [if_neg (by omega), if_pos h]
    · simp only [Key.less]; rw [if_pos h]
  have B : ∀ e ∈ entries a.length b ++ entries (a.length + b.length) c, ∀ r,
      Key.less ⟨i, dist2 P u, j, r⟩ e.1 = true := by
    intro e he r
    have h : i < e.1.index1 := by
      rcases List.mem_append.1 he with he | he
      · have := (mem_entries he).2.2.1; omega
      · have := (mem_entries he).2.2.1; omega
    simp only [Key.less]; rw [if_pos h]
  have B' : ∀ e ∈ entries a.length b, ∀ r, Key.less ⟨j, dist2 P s, i, r⟩ e.1 = false ∧
      e.1.less ⟨j, dist2 P s, i, r⟩ = true := by
    intro e he r
    obtain ⟨h1, h2, h3, h4, h5, -⟩ := mem_entries he
    have : e.1.index1 < j ∨ e.1.index1 = j := by omega
    rcases this with h | h
    · constructor
      · simp only [Key.less]; rw [if_neg (by omega), if_pos h]
      · simp only [Key.less]; rw [if_pos h]
    · constructor
      · simp only [Key.less]
        rw [if_neg (by omega), if_neg (by omega), if_neg (by rw [h2]; exact not_lt.2 d2.le), if_pos (by rw [h2]; exact d2)]
      · simp only [Key.less]
        rw [if_neg (by omega), if_neg (by omega), if_pos (by rw [h2]; exact d2)]
  have C : ∀ e ∈ entries (a.length + b.length) c, ∀ r, Key.less ⟨j, dist2 P s, i, r⟩ e.1 = true := by
    intro e he r
    have h : j < e.1.index1 := by
      have := (mem_entries he).2.2.1; omega
    simp only [Key.less]; rw [if_pos h]
  have R : Key.less ⟨j, dist2 P s, i, true⟩ ⟨j, dist2 P s, i, false⟩ = true := by simp [Key.less]
  have R1 : Key.less ⟨i, dist2 P u, j, true⟩ ⟨i, dist2 P u, j, false⟩ = true := by simp [Key.less]
  have R1' : Key.less ⟨i, dist2 P u, j, false⟩ ⟨i, dist2 P u, j, true⟩ = false := by simp [Key.less]
  have IJ : ∀ o o' k k' r r', Key.less ⟨j, o, k, r⟩ ⟨i, o', k', r'⟩ = false ∧
      Key.less ⟨i, o', k', r'⟩ ⟨j, o, k, r⟩ = true := by
    intro o o' k k' r r'
    constructor
    · simp only [Key.less]; rw [if_neg (by omega), if_pos hij]
    · simp only [Key.less]; rw [if_pos hij]
  have s1 : ∀ v, emplace ⟨i, dist2 P u, j, true⟩ v (entries 0 (a ++ b ++ c)) =
      entries 0 a ++ (⟨i, dist2 P u, j, true⟩, v) :: (entries a.length b ++ entries (a.length + b.length) c) := by
    intro v
    rw [e0, emplace_append fun e he => A e he _, emplace_front fun e he => B e he _]
  have s2 : ∀ v x, emplace ⟨j, dist2 P s, i, false⟩ v (entries 0 a ++ (⟨i, dist2 P u, j, true⟩, x) ::
      (entries a.length b ++ entries (a.length + b.length) c)) =
      entries 0 a ++ (⟨i, dist2 P u, j, true⟩, x) :: (entries a.length b ++ (⟨j, dist2 P s, i, false⟩, v) ::
        entries (a.length + b.length) c) := by
    intro v x
    rw [emplace_append fun e he => A' e he _ _ _, emplace, (IJ _ _ _ _ _ _).1, (IJ _ _ _ _ _ _).2,
      emplace_append fun e he => B' e he _, emplace_front fun e he => C e he _]
    simp
  have s3 : ∀ v x y, emplace ⟨j, dist2 P s, i, true⟩ v (entries 0 a ++ (⟨i, dist2 P u, j, true⟩, x) ::
      (entries a.length b ++ (⟨j, dist2 P s, i, false⟩, y) :: entries (a.length + b.length) c)) =
      entries 0 a ++ (⟨i, dist2 P u, j, true⟩, x) :: (entries a.length b ++ (⟨j, dist2 P s, i, true⟩, v) ::
        (⟨j, dist2 P s, i, false⟩, y) :: entries (a.length + b.length) c) := by
    intro v x y
    rw [emplace_append fun e he => A' e he _ _ _, emplace, (IJ _ _ _ _ _ _).1, (IJ _ _ _ _ _ _).2,
      emplace_append fun e he => B' e he _, emplace, R]
    simp
  have s4 : ∀ v x l, (∀ e ∈ l, Key.less ⟨i, dist2 P u, j, false⟩ e.1 = true) →
      emplace ⟨i, dist2 P u, j, false⟩ v (entries 0 a ++ (⟨i, dist2 P u, j, true⟩, x) :: l) =
      entries 0 a ++ (⟨i, dist2 P u, j, true⟩, x) :: (⟨i, dist2 P u, j, false⟩, v) :: l := by
    intro v x l hl
    rw [emplace_append fun e he => A e he _, emplace, R1', R1, emplace_front hl]
    simp
  rw [s1, s2, s3, s4]
  · simp only [insertKey]
    rw [(IJ _ _ _ _ _ _).2]
    simp
  · intro e he
    rcases List.mem_append.1 he with he | he
    · exact B e (List.mem_append_left _ he) _
    · rcases List.mem_cons.1 he with rfl | he
      · exact (IJ _ _ _ _ _ _).2
      · rcases List.mem_cons.1 he with rfl | he
        · exact (IJ _ _ _ _ _ _).2
        · exact B e (List.mem_append_right _ he) _

/-! ## Following the boundary -/

theorem pushPoint_last (r : List Pt) (p : Pt) : (pushPoint r p).getLast? = some p := by
  unfold pushPoint
  split
  · simp
  · rename_i q hq
    split_ifs with h
    · simp
    · rw [dist2_pos, not_not] at h
      rw [hq, h]

theorem isClosed_miss {p : Pt} {ring : List Pt} {pieces : List (List Pt × ℚ)} {l : List (Pt × ℕ)}
    (h : ∀ s ∈ l, s.1 ≠ p) : isClosed p true ring pieces l = .ok (false, ring, pieces) := by
  induction l with
  | nil => rfl
  | cons s l ih =>
    unfold isClosed
    have h1 : ¬ dist2 s.1 p = 0 := by rw [dist2_eq_zero]; exact h s List.mem_cons_self
    have := ih fun s hs => h s (List.mem_cons_of_mem _ hs)
    simp [h1, this]

theorem follow_run {t : Table} {P : Pt} (run : List (Key × Vertex)) (x : Key × Vertex)
    (hchain : List.IsChain (fun e e' => next t.vertices e.1 = some e') (run ++ [x]))
    (hrun : ∀ e ∈ run, e.1.reroute = false ∧ e.1 ∉ t.starts ∧ e.2.p ≠ P) (w : Walk)
    (hw : ∀ s ∈ w.starts, s.1 = P) (hk : ∀ k ∈ w.startKeys, k ∈ t.starts) (fuel : ℕ) :
    follow t (run.length + fuel) ((run ++ [x]).head (by simp)) w =
      follow t fuel x { w with ring := (run.map fun e => e.2.p).foldl pushPoint w.ring } := by
  induction run generalizing w with
  | nil => simp
  | cons e run ih =>
    have hr := hrun e List.mem_cons_self
    obtain ⟨h1, h2, h3⟩ := hr
    have hc : List.IsChain (fun e e' => next t.vertices e.1 = some e') (run ++ [x]) := by
      rw [List.cons_append] at hchain
      exact hchain.tail
    have hn : next t.vertices e.1 = some ((run ++ [x]).head (by simp)) := by
      rw [List.cons_append, List.isChain_cons] at hchain
      exact hchain.1 _ (by rw [List.head?_eq_some_head (by simp)]; rfl)
    have hkeys : w.startKeys.filter (fun k => !decide (k = e.1)) = w.startKeys := by
      rw [List.filter_eq_self]
      intro k hk'
      have : k ≠ e.1 := fun h => h2 (h ▸ hk k hk')
      simp [this]
    rw [show (e :: run).length + fuel = (run.length + fuel) + 1 by simp; omega]
    rw [show ((e :: run ++ [x]).head (by simp)) = e from rfl, follow]
    simp only [h1, Bool.false_eq_true, if_false, hn, pushPoint_last, if_neg h2, hkeys]
    rw [isClosed_miss (fun s hs => by rw [hw s hs]; exact h3.symm), Outcome.bind_ok]
    simp only [Bool.false_eq_true, if_false]
    exact ih hc (fun e he => hrun e (List.mem_cons_of_mem _ he)) { w with ring := pushPoint w.ring e.2.p } hw hk

theorem next_mid {vs pre suf : List (Key × Vertex)} {e e' : Key × Vertex} (h : vs = pre ++ e :: e' :: suf)
    (hn : ∀ f ∈ pre, f.1 ≠ e.1) : next vs e.1 = some e' := by
  unfold next
  have : vs.dropWhile (fun f => !decide (f.1 = e.1)) = e :: e' :: suf := by
    rw [h, List.dropWhile_append_of_pos fun f hf => by simpa using hn f hf]
    simp
  rw [this]
  rfl

theorem next_last {vs pre : List (Key × Vertex)} {e : Key × Vertex} (h : vs = pre ++ [e])
    (hn : ∀ f ∈ pre, f.1 ≠ e.1) : next vs e.1 = vs.head? := by
  unfold next
  have : vs.dropWhile (fun f => !decide (f.1 = e.1)) = [e] := by
    rw [h, List.dropWhile_append_of_pos fun f hf => by simpa using hn f hf]
    simp
  rw [this]
  rfl

theorem chain_next {vs pre l suf : List (Key × Vertex)} (h : vs = pre ++ l ++ suf) (hn : (vs.map Prod.fst).Nodup) :
    List.IsChain (fun e e' => next vs e.1 = some e') l := by
  induction l generalizing pre with
  | nil => exact List.IsChain.nil
  | cons e l ih =>
    rw [List.isChain_cons]
    refine ⟨?_, ih (pre := pre ++ [e]) (by rw [h]; simp)⟩
    intro e' he'
    cases l with
    | nil => cases he'
    | cons e'' l =>
      obtain rfl : e'' = e' := by simpa using he'
      refine next_mid (pre := pre) (suf := l ++ suf) (by rw [h]; simp) ?_
      intro f hf hfe
      rw [h, List.map_append, List.map_append, List.append_assoc, List.nodup_append] at hn
      refine hn.2.2 _ (List.mem_map_of_mem hf) _ ?_ rfl
      rw [hfe]
      simp

theorem find_mid {pre suf : List (Key × Vertex)} {e : Key × Vertex} (hn : ∀ f ∈ pre, f.1 ≠ e.1) :
    find e.1 (pre ++ e :: suf) = some e := by
  unfold find
  rw [List.find?_append, List.find?_eq_none.2 fun f hf => by simpa using hn f hf]
  simp

theorem foldl_pushPoint {l : List Pt} {r : List Pt} (hr : r ≠ []) (h : List.IsChain (· ≠ ·) (r ++ l)) :
    l.foldl pushPoint r = r ++ l := by
  induction l generalizing r with
  | nil => simp
  | cons x l ih =>
    have e : pushPoint r x = r ++ [x] := by
      unfold pushPoint
      obtain ⟨q, hq⟩ : ∃ q, r.getLast? = some q := by
        cases hr' : r.getLast? with
        | none => exact absurd (List.getLast?_eq_none_iff.1 hr') hr
        | some q => exact ⟨q, rfl⟩
      rw [hq]
      have : q ≠ x := by
        rw [List.isChain_append] at h
        exact h.2.2 q (by rw [hq]; rfl) x (by simp)
      simp [dist2_pos.2 this]
    rw [List.foldl_cons, e, ih (by simp) (by simpa using h)]
    simp

/-! ## Areas -/

/-- What an edge adds to the area. -/
def edge (p q : Pt) : ℚ := (q.1 * p.2 - p.1 * q.2) / 2

theorem edgeSum_cons_cons (p q : Pt) (l : List Pt) : edgeSum (p :: q :: l) = edge p q + edgeSum (q :: l) := rfl

theorem edgeSum_join (l m : List Pt) (x : Pt) : edgeSum (l ++ x :: m) = edgeSum (l ++ [x]) + edgeSum (x :: m) := by
  induction l with
  | nil => simp [edgeSum]
  | cons y l ih =>
    cases l with
    | nil => simp [edgeSum_cons_cons, edgeSum]
    | cons z l =>
      simp only [List.cons_append, edgeSum_cons_cons] at ih ⊢
      rw [ih]; ring

theorem edgeSum_glue {l m : List Pt} {x y : Pt} (hl : l.getLast? = some x) (hm : m.head? = some y) :
    edgeSum (l ++ m) = edgeSum l + edge x y + edgeSum m := by
  obtain ⟨l0, rfl⟩ := List.getLast?_eq_some_iff.1 hl
  obtain ⟨m0, rfl⟩ := List.head?_eq_some_iff.1 hm
  rw [List.append_assoc, List.singleton_append, edgeSum_join, edgeSum_cons_cons]
  ring

theorem edge_split {u v P : Pt} (h : (v.1 - u.1) * (P.2 - u.2) = (v.2 - u.2) * (P.1 - u.1)) :
    edge u v = edge u P + edge P v := by
  unfold edge
  linear_combination (-1 / 2 : ℚ) * h

/-- A quantity that adds up along a line. -/
def Measure (f : Pt → Pt → ℚ) : Prop :=
  ∀ u v P : Pt, (v.1 - u.1) * (P.2 - u.2) = (v.2 - u.2) * (P.1 - u.1) → f u v = f u P + f P v

theorem measure_edge : Measure edge := fun _ _ _ h => edge_split h

theorem Measure.self {f : Pt → Pt → ℚ} (hf : Measure f) (p : Pt) : f p p = 0 := by
  have := hf p p p (by ring)
  linarith

theorem Measure.swap {f : Pt → Pt → ℚ} (hf : Measure f) (p q : Pt) : f q p = -f p q := by
  have := hf p p q (by ring)
  have := hf.self p
  linarith

/-- The sum over the edges of a list of points. -/
def total (f : Pt → Pt → ℚ) : List Pt → ℚ
  | p :: q :: l => f p q + total f (q :: l)
  | _ => 0

theorem total_cons_cons (f : Pt → Pt → ℚ) (p q : Pt) (l : List Pt) :
    total f (p :: q :: l) = f p q + total f (q :: l) := rfl

theorem total_edge (l : List Pt) : total edge l = edgeSum l := by
  induction l with
  | nil => rfl
  | cons p l ih =>
    cases l with
    | nil => rfl
    | cons q l => rw [total_cons_cons, edgeSum_cons_cons, ih]

theorem total_join (f : Pt → Pt → ℚ) (l m : List Pt) (x : Pt) :
    total f (l ++ x :: m) = total f (l ++ [x]) + total f (x :: m) := by
  induction l with
  | nil => simp [total]
  | cons y l ih =>
    cases l with
    | nil => simp [total_cons_cons, total]
    | cons z l =>
      simp only [List.cons_append, total_cons_cons] at ih ⊢
      rw [ih]; ring

theorem total_glue (f : Pt → Pt → ℚ) {l m : List Pt} {x y : Pt} (hl : l.getLast? = some x) (hm : m.head? = some y) :
    total f (l ++ m) = total f l + f x y + total f m := by
  obtain ⟨l0, rfl⟩ := List.getLast?_eq_some_iff.1 hl
  obtain ⟨m0, rfl⟩ := List.head?_eq_some_iff.1 hm
  rw [List.append_assoc, List.singleton_append, total_join, total_cons_cons]
  ring

theorem total_reverse {f : Pt → Pt → ℚ} (hf : Measure f) (l : List Pt) : total f l.reverse = -total f l := by
  induction l with
  | nil => simp [total]
  | cons x l ih =>
    cases l with
    | nil => simp [total]
    | cons y l =>
      rw [List.reverse_cons, List.reverse_cons, List.append_assoc, List.singleton_append, total_join,
        ← List.reverse_cons, ih]
      simp only [total]
      rw [hf.swap x y]
      ring

theorem area_closed (x : Pt) (l : List Pt) : area (x :: l ++ [x]) = edgeSum (x :: l ++ [x]) := by
  unfold area
  split_ifs with h
  · match l, h with
    | [], _ => simp [edgeSum]
    | [y], _ => simp [edgeSum]; ring
    | _ :: _ :: _, h => simp at h; omega
  · rfl

theorem edgeSum_reverse (l : List Pt) : edgeSum l.reverse = -edgeSum l := by
  induction l with
  | nil => simp [edgeSum]
  | cons x l ih =>
    cases l with
    | nil => simp [edgeSum]
    | cons y l =>
      rw [List.reverse_cons, List.reverse_cons, List.append_assoc, List.singleton_append, edgeSum_join,
        ← List.reverse_cons, ih]
      simp only [edgeSum]
      ring

theorem area_reverse (l : List Pt) : area l.reverse = -area l := by
  unfold area
  rw [List.length_reverse, edgeSum_reverse]
  split_ifs <;> simp

theorem area_orient (l : List Pt) : area (orient l) = |area l| := by
  unfold orient
  split_ifs with h
  · rw [area_reverse, abs_of_neg h]
  · rw [abs_of_nonneg (not_lt.1 h)]

end RgbdSlam.PolygonRepair
