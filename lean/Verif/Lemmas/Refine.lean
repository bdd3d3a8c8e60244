import Verif.Model.Refine
import Verif.Spec.Refine
import Verif.Lemmas.Geometry2
import Mathlib.Tactic.SplitIfs
import Mathlib.Tactic.Ring
import Mathlib.Tactic.Linarith
/-
Lemmas on the masks of cells.
-/
namespace RgbdSlam.Refine

open Geometry Spec

theorem valueAt_nat {rows cols : ℕ} {o : Bool} {m : Mask} {r c : ℕ} (h : InGrid rows cols (r, c)) :
    valueAt rows cols o m r c = m r c := by
  obtain ⟨h1, h2⟩ := h
  unfold valueAt
  rw [if_pos ⟨by omega, by omega, by omega, by omega⟩]
  simp

/-- Reading with a border that is absent: the place is in the grid and its value is set. -/
theorem valueAt_false {rows cols : ℕ} {m : Mask} {r c : ℤ} :
    valueAt rows cols false m r c = true ↔
      ∃ d : ℕ × ℕ, InGrid rows cols d ∧ (d.1 : ℤ) = r ∧ (d.2 : ℤ) = c ∧ m d.1 d.2 = true := by
  unfold valueAt
  split_ifs with h
  · constructor
    · intro hm
      exact ⟨(r.toNat, c.toNat), ⟨by dsimp; omega, by dsimp; omega⟩, by dsimp; omega, by dsimp; omega, hm⟩
    · rintro ⟨d, _, rfl, rfl, hm⟩
      simpa using hm
  · constructor
    · intro hm; cases hm
    · rintro ⟨d, ⟨h1, h2⟩, rfl, rfl, -⟩
      exact absurd ⟨by omega, by omega, by omega, by omega⟩ h

theorem valueAt_true {rows cols : ℕ} {m : Mask} {r c : ℤ} :
    valueAt rows cols true m r c = true ↔
      ∀ d : ℕ × ℕ, InGrid rows cols d → (d.1 : ℤ) = r → (d.2 : ℤ) = c → m d.1 d.2 = true := by
  unfold valueAt
  split_ifs with h
  · constructor
    · rintro hm d _ rfl rfl
      simpa using hm
    · intro hm
      exact hm (r.toNat, c.toNat) ⟨by dsimp; omega, by dsimp; omega⟩ (by dsimp; omega) (by dsimp; omega)
  · refine ⟨?_, fun _ => rfl⟩
    rintro - d ⟨h1, h2⟩ rfl rfl
    exact absurd ⟨by omega, by omega, by omega, by omega⟩ h

theorem beside_iff {a b : ℕ × ℕ} :
    Beside a b ↔ ∃ k ∈ crossKernel, (b.1 : ℤ) = a.1 + k.1 ∧ (b.2 : ℤ) = a.2 + k.2 := by
  simp only [crossKernel, List.mem_cons, List.not_mem_nil, or_false, exists_eq_or_imp, exists_eq_left, Beside]
  omega

theorem around_iff {a b : ℕ × ℕ} :
    Around a b ↔ ∃ k ∈ squareKernel, (b.1 : ℤ) = a.1 + k.1 ∧ (b.2 : ℤ) = a.2 + k.2 := by
  simp only [squareKernel, List.mem_cons, List.not_mem_nil, or_false, exists_eq_or_imp, exists_eq_left, Around]
  omega

theorem dilate_iff {rows cols : ℕ} {kernel : List (ℤ × ℤ)} {m : Mask} {c : ℕ × ℕ} :
    dilate rows cols kernel m c.1 c.2 = true ↔
      ∃ d : ℕ × ℕ, InGrid rows cols d ∧ m d.1 d.2 = true ∧
        ∃ k ∈ kernel, (d.1 : ℤ) = c.1 + k.1 ∧ (d.2 : ℤ) = c.2 + k.2 := by
  simp only [dilate, List.any_eq_true, valueAt_false]
  constructor
  · rintro ⟨k, hk, d, hd, h1, h2, hm⟩; exact ⟨d, hd, hm, k, hk, h1, h2⟩
  · rintro ⟨d, hd, hm, k, hk, h1, h2⟩; exact ⟨k, hk, d, hd, h1, h2, hm⟩

theorem erode_true_iff {rows cols : ℕ} {kernel : List (ℤ × ℤ)} {m : Mask} {c : ℕ × ℕ} :
    erode rows cols true kernel m c.1 c.2 = true ↔
      ∀ d : ℕ × ℕ, InGrid rows cols d →
        (∃ k ∈ kernel, (d.1 : ℤ) = c.1 + k.1 ∧ (d.2 : ℤ) = c.2 + k.2) → m d.1 d.2 = true := by
  simp only [erode, List.all_eq_true, valueAt_true]
  constructor
  · rintro h d hd ⟨k, hk, h1, h2⟩; exact h k hk d hd h1 h2
  · intro h k hk d hd h1 h2; exact h d hd ⟨k, hk, h1, h2⟩

theorem erode_cross_false_iff {rows cols : ℕ} {m : Mask} {c : ℕ × ℕ} :
    erode rows cols false crossKernel m c.1 c.2 = true ↔
      Inside rows cols (fun d => m d.1 d.2 = true) c := by
  simp only [erode, List.all_eq_true, valueAt_false]
  constructor
  · intro h
    refine ⟨?_, ?_⟩
    · obtain ⟨d1, ⟨a1, a2⟩, a3, a4, -⟩ := h (-1, 0) (by simp [crossKernel])
      obtain ⟨d2, ⟨b1, b2⟩, b3, b4, -⟩ := h (0, -1) (by simp [crossKernel])
      obtain ⟨d3, ⟨c1, c2⟩, c3, c4, -⟩ := h (0, 1) (by simp [crossKernel])
      obtain ⟨d4, ⟨e1, e2⟩, e3, e4, -⟩ := h (1, 0) (by simp [crossKernel])
      dsimp only at *
      omega
    · intro d hd
      obtain ⟨k, hk, h1, h2⟩ := beside_iff.1 hd
      obtain ⟨e, -, e1, e2, hm⟩ := h k hk
      have : e = d := Prod.ext (by omega) (by omega)
      rwa [this] at hm
  · rintro ⟨⟨g1, g2, g3, g4⟩, h⟩ k hk
    have hk' := hk
    simp only [crossKernel, List.mem_cons, List.not_mem_nil, or_false] at hk'
    refine ⟨(((c.1 : ℤ) + k.1).toNat, ((c.2 : ℤ) + k.2).toNat), ⟨?_, ?_⟩, ?_, ?_, ?_⟩
    · rcases hk' with rfl | rfl | rfl | rfl | rfl <;> dsimp only <;> omega
    · rcases hk' with rfl | rfl | rfl | rfl | rfl <;> dsimp only <;> omega
    · rcases hk' with rfl | rfl | rfl | rfl | rfl <;> dsimp only <;> omega
    · rcases hk' with rfl | rfl | rfl | rfl | rfl <;> dsimp only <;> omega
    · refine h _ (beside_iff.2 ⟨k, hk, ?_, ?_⟩)
      · rcases hk' with rfl | rfl | rfl | rfl | rfl <;> dsimp only <;> omega
      · rcases hk' with rfl | rfl | rfl | rfl | rfl <;> dsimp only <;> omega

/-- The boundary mask holds the cells on the edge of the mask. -/
theorem boundaryMask_iff {rows cols : ℕ} {m : Mask} {c : ℕ × ℕ} :
    boundaryMask rows cols m c.1 c.2 = true ↔ Edge rows cols (fun d => m d.1 d.2 = true) c := by
  unfold boundaryMask Edge
  rw [Bool.and_eq_true, Bool.not_eq_true', dilate_iff, ← erode_cross_false_iff, Bool.not_eq_true]
  simp only [← around_iff]

theorem dilate_cross_iff {rows cols : ℕ} {m : Mask} {c : ℕ × ℕ} :
    dilate rows cols crossKernel m c.1 c.2 = true ↔
      ∃ d : ℕ × ℕ, InGrid rows cols d ∧ Beside c d ∧ m d.1 d.2 = true := by
  rw [dilate_iff]
  simp only [← beside_iff]
  constructor
  · rintro ⟨d, a, b, e⟩; exact ⟨d, a, e, b⟩
  · rintro ⟨d, a, b, e⟩; exact ⟨d, a, e, b⟩

theorem closing_iff {rows cols : ℕ} {m : Mask} {c : ℕ × ℕ} :
    closing rows cols m c.1 c.2 = true ↔ Filled rows cols (fun d => m d.1 d.2 = true) c := by
  unfold closing Filled
  rw [erode_true_iff]
  simp only [← beside_iff, dilate_cross_iff]

theorem mem_cells {g : Grid} {c : ℕ × ℕ} : c ∈ g.cells ↔ InGrid g.rows g.cols c := by
  unfold Grid.cells InGrid
  simp only [List.mem_flatMap, List.mem_range, List.mem_map]
  constructor
  · rintro ⟨r, hr, k, hk, rfl⟩; exact ⟨hr, hk⟩
  · rintro ⟨h1, h2⟩; exact ⟨c.1, h1, c.2, h2, rfl⟩

theorem nodup_cells (g : Grid) : g.cells.Nodup := by
  unfold Grid.cells
  rw [List.nodup_flatMap]
  refine ⟨fun r _ => List.nodup_range.map fun a b h => by simpa using h, ?_⟩
  refine List.nodup_range.imp_of_mem fun {a b} _ _ hab => ?_
  intro x hx hy
  obtain ⟨k, -, rfl⟩ := List.mem_map.1 hx
  obtain ⟨k', -, h⟩ := List.mem_map.1 hy
  exact hab (by simpa using (congrArg Prod.fst h).symm)

/-- The centre of a cell is a pixel of the image. -/
theorem centre_lt {n size i : ℕ} (hi : i < n / size) : i * size + size / 2 < n := by
  have hs : 0 < size := by
    rcases Nat.eq_zero_or_pos size with h | h
    · subst h; simp at hi
    · exact h
  have h1 : (i + 1) * size ≤ n := le_trans (Nat.mul_le_mul_right _ hi) (Nat.div_mul_le_self n size)
  have : size / 2 < size := Nat.div_lt_self hs (by norm_num)
  rw [Nat.add_mul] at h1
  omega

end RgbdSlam.Refine
