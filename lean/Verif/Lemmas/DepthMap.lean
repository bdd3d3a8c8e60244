import Verif.Model.DepthMap
import Mathlib.Tactic.Linarith
import Mathlib.Tactic.Ring
import Mathlib.Algebra.Order.Floor.Ring

/-
Lemmas about the depth image.
-/
namespace RgbdSlam.DepthMap

open Geometry

/-! ## Orders of execution -/

theorem set_perm_flatten {α : Type} : ∀ {rows : List (List α)} {i : ℕ} {a : α} {rest : List α},
    rows[i]? = some (a :: rest) → (a :: (rows.set i rest).flatten).Perm rows.flatten
  | [], i, a, rest, h => by simp at h
  | r :: rows, 0, a, rest, h => by
    simp only [List.getElem?_cons_zero, Option.some.injEq] at h
    subst h
    simp
  | r :: rows, i + 1, a, rest, h => by
    simp only [List.getElem?_cons_succ] at h
    have ih := set_perm_flatten h
    simp only [List.set_cons_succ, List.flatten_cons]
    refine List.perm_middle.symm.trans ?_
    exact List.Perm.append_left r ih

/-- Every pixel of every row is treated exactly once. -/
theorem Interleaving.perm {α : Type} {rows : List (List α)} {l : List α} (h : Interleaving rows l) :
    l.Perm rows.flatten := by
  induction h with
  | done h =>
    rw [List.flatten_eq_nil_iff.2 h]
  | step i a rest hi _ ih => exact (List.Perm.cons a ih).trans (set_perm_flatten hi)

/-- The sequential order is an execution. -/
theorem interleaving_flatten {α : Type} : ∀ rows : List (List α), Interleaving rows rows.flatten := by
  have drop : ∀ (pre : List (List α)) (r : List α) (rows : List (List α)) (l : List α), (∀ p ∈ pre, p = []) →
      Interleaving (pre ++ [] :: rows) l → Interleaving (pre ++ r :: rows) (r ++ l) := by
    intro pre r rows l hp h
    induction r with
    | nil => exact h
    | cons a r ih =>
      refine .step pre.length a r (by simp) ?_
      have : (pre ++ (a :: r) :: rows).set pre.length r = pre ++ r :: rows := by simp
      rw [this]
      exact ih
  have key : ∀ (rows pre : List (List α)), (∀ p ∈ pre, p = []) → Interleaving (pre ++ rows) rows.flatten := by
    intro rows
    induction rows with
    | nil => intro pre hp; exact .done (by simpa using hp)
    | cons r rows ih =>
      intro pre hp
      rw [List.flatten_cons]
      refine drop pre r rows _ hp ?_
      have := ih (pre ++ [[]]) (by
        intro p h
        rcases List.mem_append.1 h with h | h
        · exact hp p h
        · simpa using h)
      simpa using this
  intro rows
  simpa using key rows [] (by simp)

theorem mem_imageRows {width height : ℕ} {p : ℕ × ℕ} :
    p ∈ (imageRows width height).flatten ↔ p.1 < height ∧ p.2 < width := by
  obtain ⟨r, c⟩ := p
  simp only [imageRows, rowPixels, List.mem_flatten, List.mem_map, List.mem_range]
  constructor
  · rintro ⟨l, ⟨a, ha, rfl⟩, h⟩
    simp only [List.mem_map, List.mem_range, Prod.mk.injEq] at h
    obtain ⟨b, hb, rfl, rfl⟩ := h
    exact ⟨ha, hb⟩
  · rintro ⟨h1, h2⟩
    exact ⟨_, ⟨r, h1, rfl⟩, by simp [h2]⟩

theorem nodup_imageRows (width height : ℕ) : (imageRows width height).flatten.Nodup := by
  rw [List.nodup_flatten]
  constructor
  · intro l hl
    obtain ⟨r, -, rfl⟩ := List.mem_map.1 hl
    exact List.nodup_range.map fun a b h => (Prod.mk.inj h).2
  · rw [imageRows, List.pairwise_map]
    refine List.nodup_range.imp ?_
    intro a b hab p ha hb
    simp only [rowPixels, List.mem_map] at ha hb
    obtain ⟨_, _, rfl⟩ := ha
    obtain ⟨_, _, h⟩ := hb
    exact hab (Prod.mk.inj h).1.symm

/-! ## Writes -/

section Writes

variable {α β γ : Type} [DecidableEq β] {f : α → Outcome (Option (β × γ))}

/-- When all iterations succeed, the result of a run is: the last write of each place. -/
theorem runWrites_ok : ∀ (l : List α) (out : β → γ), (∀ a ∈ l, ∃ w, f a = .ok w) →
    ∃ r, runWrites f l out = .ok r ∧
      (∀ b, (∀ a ∈ l, ∀ c, f a ≠ .ok (some (b, c))) → r b = out b) ∧
      (∀ b, (∃ a ∈ l, ∃ c, f a = .ok (some (b, c))) → ∃ a ∈ l, f a = .ok (some (b, r b)))
  | [], out, _ => ⟨out, rfl, fun _ _ => rfl, fun b h => by simp at h⟩
  | a :: l, out, h => by
    obtain ⟨w, hw⟩ := h a List.mem_cons_self
    have hl : ∀ a ∈ l, ∃ w, f a = .ok w := fun x hx => h x (List.mem_cons_of_mem _ hx)
    cases w with
    | none =>
      obtain ⟨r, h1, h2, h3⟩ := runWrites_ok l out hl
      refine ⟨r, by rw [runWrites, hw]; exact h1, fun b hb => h2 b fun x hx => hb x (List.mem_cons_of_mem _ hx),
        fun b hb => ?_⟩
      obtain ⟨x, hx, c, hc⟩ := hb
      rcases List.mem_cons.1 hx with rfl | hx
      · rw [hw] at hc; simp at hc
      · obtain ⟨y, hy, hy'⟩ := h3 b ⟨x, hx, c, hc⟩
        exact ⟨y, List.mem_cons_of_mem _ hy, hy'⟩
    | some w =>
      obtain ⟨b0, c0⟩ := w
      obtain ⟨r, h1, h2, h3⟩ := runWrites_ok l (Function.update out b0 c0) hl
      refine ⟨r, by rw [runWrites, hw]; exact h1, fun b hb => ?_, fun b hb => ?_⟩
      · rw [h2 b fun x hx => hb x (List.mem_cons_of_mem _ hx)]
        have : b ≠ b0 := by
          rintro rfl
          exact hb a List.mem_cons_self c0 hw
        exact Function.update_of_ne this _ _
      · by_cases hex : ∃ x ∈ l, ∃ c, f x = .ok (some (b, c))
        · obtain ⟨y, hy, hy'⟩ := h3 b hex
          exact ⟨y, List.mem_cons_of_mem _ hy, hy'⟩
        · have hr : r b = Function.update out b0 c0 b := by
            refine h2 b fun x hx c hc => hex ⟨x, hx, c, hc⟩
          obtain ⟨x, hx, c, hc⟩ := hb
          rcases List.mem_cons.1 hx with rfl | hx
          · rw [hw] at hc
            obtain ⟨rfl, rfl⟩ := Prod.mk.inj (Option.some.inj (Outcome.ok.inj hc))
            refine ⟨_, List.mem_cons_self, ?_⟩
            rw [hr, Function.update_self, hw]
          · exact absurd ⟨x, hx, c, hc⟩ hex

/-- A run fails as soon as one of its iterations does. -/
theorem runWrites_fails : ∀ (l : List α) (out : β → γ) (a : α), a ∈ l → (∀ w, f a ≠ .ok w) →
    ∀ r, runWrites f l out ≠ .ok r
  | b :: l, out, a, ha, hf, r => by
    rw [runWrites]
    intro h
    obtain ⟨w, hw, hr⟩ := Outcome.bind_eq_ok h
    rcases List.mem_cons.1 ha with rfl | ha
    · exact hf w hw
    · exact runWrites_fails l _ a ha hf r hr

/-- When the iterations write different places, the order does not matter. -/
theorem runWrites_perm {l l' : List α} (hp : l.Perm l') (out : β → γ) (h : ∀ a ∈ l, ∃ w, f a = .ok w)
    (hinj : ∀ a ∈ l, ∀ a' ∈ l, ∀ b c c', f a = .ok (some (b, c)) → f a' = .ok (some (b, c')) → c = c') :
    runWrites f l out = runWrites f l' out := by
  have h' : ∀ a ∈ l', ∃ w, f a = .ok w := fun a ha => h a (hp.mem_iff.2 ha)
  obtain ⟨r, h1, h2, h3⟩ := runWrites_ok l out h
  obtain ⟨r', h1', h2', h3'⟩ := runWrites_ok l' out h'
  rw [h1, h1']
  congr 1
  funext b
  by_cases hex : ∃ a ∈ l, ∃ c, f a = .ok (some (b, c))
  · obtain ⟨a, ha, hc⟩ := h3 b hex
    obtain ⟨x, hx, c, hxc⟩ := hex
    obtain ⟨a', ha', hc'⟩ := h3' b ⟨x, hp.mem_iff.1 hx, c, hxc⟩
    exact hinj a ha a' (hp.mem_iff.2 ha') b _ _ hc hc'
  · rw [h2 b fun a ha c hc => hex ⟨a, ha, c, hc⟩,
      h2' b fun a ha c hc => hex ⟨a, hp.mem_iff.2 ha, c, hc⟩]

end Writes

/-! ## Cells -/

theorem cellIndex_eq (width s row col : ℕ) :
    cellIndex width s row col =
      ((row / s) * (width / s) + col / s) * (s * s) + ((row % s) * s + col % s) := by
  simp only [cellIndex]; ring

theorem local_lt {s : ℕ} (hs : 0 < s) (row col : ℕ) : (row % s) * s + col % s < s * s := by
  have h1 := Nat.mod_lt row hs
  have h2 := Nat.mod_lt col hs
  have : (row % s) * s + s ≤ s * s := by
    rw [← Nat.succ_mul]
    exact Nat.mul_le_mul_right s h1
  omega

theorem cellIndex_div {s : ℕ} (hs : 0 < s) (width row col : ℕ) :
    cellIndex width s row col / (s * s) = (row / s) * (width / s) + col / s := by
  have h := local_lt hs row col
  have : 0 < s * s := Nat.mul_pos hs hs
  rw [cellIndex_eq, Nat.add_comm, Nat.add_mul_div_right _ _ this, Nat.div_eq_of_lt h, Nat.zero_add]

theorem cellIndex_mod {s : ℕ} (hs : 0 < s) (width row col : ℕ) :
    cellIndex width s row col % (s * s) = (row % s) * s + col % s := by
  rw [cellIndex_eq, Nat.mul_comm _ (s * s), Nat.mul_add_mod, Nat.mod_eq_of_lt (local_lt hs row col)]

theorem pair_inj {n a b c d : ℕ} (hb : b < n) (hd : d < n) (h : a * n + b = c * n + d) : a = c ∧ b = d := by
  have hn : 0 < n := by omega
  have h1 := congrArg (· / n) h
  have h2 := congrArg (· % n) h
  simp only [Nat.mul_add_mod', Nat.mod_eq_of_lt hb, Nat.mod_eq_of_lt hd] at h2
  rw [Nat.add_comm, Nat.add_comm (c * n)] at h1
  simp only [Nat.add_mul_div_right _ _ hn, Nat.div_eq_of_lt hb, Nat.div_eq_of_lt hd, Nat.zero_add] at h1
  exact ⟨h1, h2⟩

theorem cell_lt {s width col : ℕ} (hs : 0 < s) (hw : s ∣ width) (hc : col < width) : col / s < width / s := by
  obtain ⟨k, rfl⟩ := hw
  rw [Nat.mul_div_cancel_left _ hs]
  exact Nat.div_lt_of_lt_mul hc

theorem cellIndex_inj {s width row col row' col' : ℕ} (hs : 0 < s) (hw : s ∣ width) (hc : col < width)
    (hc' : col' < width) (h : cellIndex width s row col = cellIndex width s row' col') :
    row = row' ∧ col = col' := by
  have h1 := congrArg (· / (s * s)) h
  have h2 := congrArg (· % (s * s)) h
  simp only [cellIndex_div hs, cellIndex_mod hs] at h1 h2
  obtain ⟨a1, a2⟩ := pair_inj (cell_lt hs hw hc) (cell_lt hs hw hc') h1
  obtain ⟨b1, b2⟩ := pair_inj (Nat.mod_lt _ hs) (Nat.mod_lt _ hs) h2
  constructor
  · rw [← Nat.div_add_mod row s, ← Nat.div_add_mod row' s, a1, b1]
  · rw [← Nat.div_add_mod col s, ← Nat.div_add_mod col' s, a2, b2]

theorem cellIndex_lt {s width height row col : ℕ} (hs : 0 < s) (hw : s ∣ width) (hh : s ∣ height)
    (hr : row < height) (hc : col < width) : cellIndex width s row col < width * height := by
  have h1 := cell_lt hs hw hc
  have h2 := cell_lt hs hh hr
  have h3 := local_lt hs row col
  obtain ⟨k, rfl⟩ := hw
  obtain ⟨l, rfl⟩ := hh
  rw [Nat.mul_div_cancel_left _ hs] at h1 h2
  rw [cellIndex_eq, Nat.mul_div_cancel_left _ hs]
  have h4 : row / s * k + col / s + 1 ≤ l * k := by
    have : (row / s + 1) * k ≤ l * k := Nat.mul_le_mul_right k h2
    rw [Nat.succ_mul] at this
    omega
  have h5 : (row / s * k + col / s + 1) * (s * s) ≤ l * k * (s * s) := Nat.mul_le_mul_right _ h4
  rw [Nat.succ_mul] at h5
  have : s * k * (s * l) = l * k * (s * s) := by ring
  omega

end RgbdSlam.DepthMap
