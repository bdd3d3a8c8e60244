import Verif.Lemmas.Histogram

/-
Lemmas about region growing.
-/
namespace RgbdSlam.Primitives

open RgbdSlam Spec

/-- Cells that may still be activated. -/
def todo (free act : List Nat) : Nat := free.countP (fun i => !act.contains i)

theorem todo_mono {free act act' : List Nat} (h : ∀ c, c ∈ act → c ∈ act') : todo free act' ≤ todo free act := by
  apply List.countP_mono_left
  intro x _ hx
  simp only [Bool.not_eq_true', List.contains_eq_mem, decide_eq_false_iff_not] at hx ⊢
  exact fun h' => hx (h x h')

theorem countP_lt {l : List Nat} {p q : Nat → Bool} (h : ∀ x, p x = true → q x = true) {a : Nat} (ha : a ∈ l)
    (hp : p a = false) (hq : q a = true) : l.countP p < l.countP q := by
  induction l with
  | nil => cases ha
  | cons x xs ih =>
    have hle : xs.countP p ≤ xs.countP q := List.countP_mono_left (fun y _ hy => h y hy)
    by_cases hx : x = a
    · subst hx
      rw [List.countP_cons_of_neg (by simp [hp]), List.countP_cons_of_pos hq]
      omega
    · have ha' : a ∈ xs := by
        rcases List.mem_cons.mp ha with e | e
        · exact absurd e.symm hx
        · exact e
      have := ih ha'
      rw [List.countP_cons, List.countP_cons]
      have : p x = true → q x = true := h x
      by_cases hpx : p x = true
      · rw [if_pos hpx, if_pos (this hpx)]; omega
      · rw [if_neg hpx]; split <;> omega

theorem todo_lt {free act : List Nat} {i : Nat} (hi : i ∈ free) (ha : i ∉ act) :
    todo free (i :: act) < todo free act := by
  apply countP_lt (a := i) _ hi
  · simp
  · simp [ha]
  · intro x hx
    simp only [Bool.not_eq_true', List.contains_eq_mem, decide_eq_false_iff_not, List.mem_cons, not_or] at hx ⊢
    exact hx.2

theorem index_lt {w h x y : Nat} (hx : x < w) (hy : y < h) : x + w * y < w * h := by
  calc x + w * y < w + w * y := by omega
    _ = w * (y + 1) := by rw [Nat.mul_add]; omega
    _ ≤ w * h := Nat.mul_le_mul_left _ hy

theorem index_inj {w x y x' y' : Nat} (hx : x < w) (hx' : x' < w) (h : x + w * y = x' + w * y') :
    x = x' ∧ y = y' := by
  have h1 : (x + w * y) % w = (x' + w * y') % w := by rw [h]
  rw [Nat.add_mul_mod_self_left, Nat.add_mul_mod_self_left, Nat.mod_eq_of_lt hx, Nat.mod_eq_of_lt hx'] at h1
  subst h1
  have h2 : w * y = w * y' := by omega
  exact ⟨rfl, Nat.eq_of_mul_eq_mul_left (by omega) h2⟩

/-- What a call of `region_growing` guarantees when it goes from `act` to `act'` through the cell `i`, reached
from `prev`. -/
structure Grown (g : Scene) (free : List Nat) (prev i : Nat) (act act' : List Nat) : Prop where
  mono : ∀ c, c ∈ act → c ∈ act'
  nodup : act.Nodup → act'.Nodup
  sound : ∀ P : Nat → Prop, (i ∈ free → g.cellMerge prev i = true → P i) →
    (∀ c d, P c → Neighbour g.w g.h c d → d ∈ free → g.cellMerge c d = true → P d) →
    ∀ c, c ∈ act' → c ∈ act ∨ P c
  closed : ∀ c, c ∈ act' → c ∉ act → ∀ d, Neighbour g.w g.h c d → d ∈ free → g.cellMerge c d = true → d ∈ act'
  enters : i ∈ free → g.cellMerge prev i = true → i ∈ act'

/-- One of the four calls on a neighbour. -/
theorem grow_call {g : Scene} {free : List Nat} {fuel : Nat} {cond : Prop} [Decidable cond] {x y i : Nat}
    {act : List Nat}
    (ih : cond → ∃ act', grow g free fuel x y i act = .ok act' ∧ Grown g free i (x + g.w * y) act act') :
    ∃ act', (if cond then grow g free fuel x y i act else .ok act) = .ok act' ∧
      (cond → Grown g free i (x + g.w * y) act act') ∧ (¬ cond → act' = act) := by
  by_cases h : cond
  · obtain ⟨act', h1, h2⟩ := ih h
    exact ⟨act', by rw [if_pos h]; exact h1, fun _ => h2, fun hn => absurd h hn⟩
  · exact ⟨act, by rw [if_neg h], fun hc => absurd hc h, fun _ => rfl⟩

theorem grow_spec (g : Scene) (free : List Nat) : ∀ (fuel x y prev : Nat) (act : List Nat), x < g.w → y < g.h →
    todo free act < fuel →
    ∃ act', grow g free fuel x y prev act = .ok act' ∧ Grown g free prev (x + g.w * y) act act' := by
  intro fuel
  induction fuel with
  | zero => intro x y prev act _ _ h; omega
  | succ fuel ih =>
    intro x y prev act hx hy hf
    rw [grow]
    have hidx : x + g.w * y < g.total := index_lt hx hy
    generalize hi : x + g.w * y = i at *
    rw [if_neg (by omega)]
    by_cases hfree : i ∈ free
    case neg =>
      rw [if_pos (by simp [hfree])]
      exact ⟨act, rfl, fun _ h => h, fun h => h, fun _ _ _ c hc => Or.inl hc,
        fun c hc hn => absurd hc hn, fun h => absurd h hfree⟩
    by_cases hact : i ∈ act
    case pos =>
      rw [if_pos (by simp [hact])]
      exact ⟨act, rfl, fun _ h => h, fun h => h, fun _ _ _ c hc => Or.inl hc,
        fun c hc hn => absurd hc hn, fun _ _ => hact⟩
    rw [if_neg (by simp [hfree, hact])]
    by_cases hm : g.cellMerge prev i = true
    case neg =>
      rw [if_neg hm]
      exact ⟨act, rfl, fun _ h => h, fun h => h, fun _ _ _ c hc => Or.inl hc,
        fun c hc hn => absurd hc hn, fun _ h => absurd h hm⟩
    rw [if_pos hm]
    have hlt := todo_lt hfree hact
    have hf0 : todo free (i :: act) < fuel := by omega
    -- left
    obtain ⟨a1, e1, g1, n1⟩ := @grow_call g free fuel (x > 0) _ (x - 1) y i (i :: act)
      (fun h => ih (x - 1) y i (i :: act) (by omega) hy hf0)
    have m1 : ∀ c, c ∈ i :: act → c ∈ a1 := by
      by_cases h : x > 0
      · exact (g1 h).mono
      · rw [n1 h]; exact fun _ h => h
    have hf1 : todo free a1 < fuel := Nat.lt_of_le_of_lt (todo_mono m1) hf0
    -- right
    obtain ⟨a2, e2, g2, n2⟩ := @grow_call g free fuel (x < g.w - 1) _ (x + 1) y i a1
      (fun h => ih (x + 1) y i a1 (by omega) hy hf1)
    have m2 : ∀ c, c ∈ a1 → c ∈ a2 := by
      by_cases h : x < g.w - 1
      · exact (g2 h).mono
      · rw [n2 h]; exact fun _ h => h
    have hf2 : todo free a2 < fuel := Nat.lt_of_le_of_lt (todo_mono m2) hf1
    -- up
    obtain ⟨a3, e3, g3, n3⟩ := @grow_call g free fuel (y > 0) _ x (y - 1) i a2
      (fun h => ih x (y - 1) i a2 hx (by omega) hf2)
    have m3 : ∀ c, c ∈ a2 → c ∈ a3 := by
      by_cases h : y > 0
      · exact (g3 h).mono
      · rw [n3 h]; exact fun _ h => h
    have hf3 : todo free a3 < fuel := Nat.lt_of_le_of_lt (todo_mono m3) hf2
    -- down
    obtain ⟨a4, e4, g4, n4⟩ := @grow_call g free fuel (y < g.h - 1) _ x (y + 1) i a3
      (fun h => ih x (y + 1) i a3 hx (by omega) hf3)
    have m4 : ∀ c, c ∈ a3 → c ∈ a4 := by
      by_cases h : y < g.h - 1
      · exact (g4 h).mono
      · rw [n4 h]; exact fun _ h => h
    refine ⟨a4, ?_, ?_, ?_, ?_, ?_, ?_⟩
    · rw [e1, Outcome.bind_ok, e2, Outcome.bind_ok, e3, Outcome.bind_ok, e4]
    · exact fun c hc => m4 c (m3 c (m2 c (m1 c (List.mem_cons_of_mem _ hc))))
    · intro hn
      have h0 : (i :: act).Nodup := List.nodup_cons.mpr ⟨hact, hn⟩
      have h1 : a1.Nodup := by
        by_cases h : x > 0
        · exact (g1 h).nodup h0
        · rw [n1 h]; exact h0
      have h2 : a2.Nodup := by
        by_cases h : x < g.w - 1
        · exact (g2 h).nodup h1
        · rw [n2 h]; exact h1
      have h3 : a3.Nodup := by
        by_cases h : y > 0
        · exact (g3 h).nodup h2
        · rw [n3 h]; exact h2
      by_cases h : y < g.h - 1
      · exact (g4 h).nodup h3
      · rw [n4 h]; exact h3
    · intro P hP hstep c hc
      have hPi : P i := hP hfree hm
      have s1 : ∀ c, c ∈ a1 → c ∈ i :: act ∨ P c := by
        by_cases h : x > 0
        · refine (g1 h).sound P (fun hf' hm' => hstep i _ hPi ⟨x, y, x - 1, y, hx, hy, by omega, hy, hi.symm,
            rfl, Or.inl ⟨rfl, Or.inl (by omega)⟩⟩ hf' hm') hstep
        · rw [n1 h]; exact fun _ h => Or.inl h
      have s2 : ∀ c, c ∈ a2 → c ∈ a1 ∨ P c := by
        by_cases h : x < g.w - 1
        · refine (g2 h).sound P (fun hf' hm' => hstep i _ hPi ⟨x, y, x + 1, y, hx, hy, by omega, hy, hi.symm,
            rfl, Or.inl ⟨rfl, Or.inr (by omega)⟩⟩ hf' hm') hstep
        · rw [n2 h]; exact fun _ h => Or.inl h
      have s3 : ∀ c, c ∈ a3 → c ∈ a2 ∨ P c := by
        by_cases h : y > 0
        · refine (g3 h).sound P (fun hf' hm' => hstep i _ hPi ⟨x, y, x, y - 1, hx, hy, hx, by omega, hi.symm,
            rfl, Or.inr ⟨rfl, Or.inl (by omega)⟩⟩ hf' hm') hstep
        · rw [n3 h]; exact fun _ h => Or.inl h
      have s4 : ∀ c, c ∈ a4 → c ∈ a3 ∨ P c := by
        by_cases h : y < g.h - 1
        · refine (g4 h).sound P (fun hf' hm' => hstep i _ hPi ⟨x, y, x, y + 1, hx, hy, hx, by omega, hi.symm,
            rfl, Or.inr ⟨rfl, Or.inr (by omega)⟩⟩ hf' hm') hstep
        · rw [n4 h]; exact fun _ h => Or.inl h
      rcases s4 c hc with hc | hc
      · rcases s3 c hc with hc | hc
        · rcases s2 c hc with hc | hc
          · rcases s1 c hc with hc | hc
            · rcases List.mem_cons.mp hc with hc | hc
              · subst hc; exact Or.inr hPi
              · exact Or.inl hc
            · exact Or.inr hc
          · exact Or.inr hc
        · exact Or.inr hc
      · exact Or.inr hc
    · intro c hc hn d hnb hd hmd
      by_cases hc3 : c ∈ a3
      case neg =>
        by_cases h : y < g.h - 1
        · exact (g4 h).closed c hc hc3 d hnb hd hmd
        · rw [n4 h] at hc; exact absurd hc hc3
      by_cases hc2 : c ∈ a2
      case neg =>
        apply m4
        by_cases h : y > 0
        · exact (g3 h).closed c hc3 hc2 d hnb hd hmd
        · rw [n3 h] at hc3; exact absurd hc3 hc2
      by_cases hc1 : c ∈ a1
      case neg =>
        apply m4; apply m3
        by_cases h : x < g.w - 1
        · exact (g2 h).closed c hc2 hc1 d hnb hd hmd
        · rw [n2 h] at hc2; exact absurd hc2 hc1
      by_cases hc0 : c ∈ i :: act
      case neg =>
        apply m4; apply m3; apply m2
        by_cases h : x > 0
        · exact (g1 h).closed c hc1 hc0 d hnb hd hmd
        · rw [n1 h] at hc1; exact absurd hc1 hc0
      rcases List.mem_cons.mp hc0 with rfl | hc'
      case inr => exact absurd hc' hn
      obtain ⟨cx, cy, dx, dy, hcx, hcy, hdx, hdy, hce, hde, hcase⟩ := hnb
      obtain ⟨rfl, rfl⟩ := index_inj hx hcx (hi.trans hce)
      rcases hcase with ⟨rfl, h | h⟩ | ⟨rfl, h | h⟩
      · apply m4; apply m3; apply m2
        have hdx' : dx = x - 1 := by omega
        subst hdx'
        have := (g1 (by omega)).enters
        rw [← hde] at this
        exact this hd hmd
      · apply m4; apply m3
        subst h
        have := (g2 (by omega)).enters
        rw [← hde] at this
        exact this hd hmd
      · apply m4
        have hdy' : dy = y - 1 := by omega
        subst hdy'
        have := (g3 (by omega)).enters
        rw [← hde] at this
        exact this hd hmd
      · subst h
        have := (g4 (by omega)).enters
        rw [← hde] at this
        exact this hd hmd
    · intro _ _
      exact m4 i (m3 i (m2 i (m1 i List.mem_cons_self)))

theorem todo_nil (free : List Nat) : todo free [] = free.length := by
  unfold todo
  rw [List.countP_eq_length]
  simp

/-- Growing from a seed activates exactly the reachable cells. -/
theorem grow_seed {g : Scene} {free : List Nat} {fuel seed : Nat} (hs : seed < g.total)
    (hf : free.length < fuel) :
    ∃ act, grow g free fuel (seed % g.w) (seed / g.w) seed [] = .ok act ∧ act.Nodup ∧
      ∀ c, c ∈ act ↔ Reachable g.w g.h (· ∈ free) (fun a b => g.cellMerge a b = true) seed c := by
  have hw : 0 < g.w := by
    rcases Nat.eq_zero_or_pos g.w with h | h
    · simp [Scene.total, h] at hs
    · exact h
  have hx : seed % g.w < g.w := Nat.mod_lt _ hw
  have hy : seed / g.w < g.h := Nat.div_lt_of_lt_mul hs
  have hidx : seed % g.w + g.w * (seed / g.w) = seed := Nat.mod_add_div _ _
  obtain ⟨act, h1, h2⟩ := grow_spec g free fuel (seed % g.w) (seed / g.w) seed [] hx hy
    (by rw [todo_nil]; exact hf)
  rw [hidx] at h2
  refine ⟨act, h1, h2.nodup List.nodup_nil, fun c => ⟨?_, ?_⟩⟩
  · intro hc
    rcases h2.sound (Reachable g.w g.h (· ∈ free) (fun a b => g.cellMerge a b = true) seed)
      (fun a b => .seed a b) (fun c d hc hn hd hm => .step hc hn hd hm) c hc with h | h
    · cases h
    · exact h
  · intro hr
    induction hr with
    | seed hu hm => exact h2.enters hu hm
    | step _ hn hu hm ih => exact h2.closed _ ih (by simp) _ hn hu hm

end RgbdSlam.Primitives
