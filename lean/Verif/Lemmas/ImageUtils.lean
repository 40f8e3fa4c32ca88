import Verif.Model.ImageUtils
import Verif.Lemmas.Base
import Mathlib.Tactic.FieldSimp
import Mathlib.Tactic.Positivity

/-! Helper lemmas for the image utilities. -/

namespace Verif

namespace ImageUtils

theorem divmod_unique {nx y x : Nat} (hx : x < nx) : (y * nx + x) / nx = y ∧ (y * nx + x) % nx = x := by
  constructor
  · rw [Nat.mul_comm, Nat.mul_add_div (by omega), Nat.div_eq_of_lt hx, Nat.add_zero]
  · rw [Nat.mul_comm, Nat.mul_add_mod, Nat.mod_eq_of_lt hx]

theorem idx_lt {ny nx y x : Nat} (hy : y < ny) (hx : x < nx) : y * nx + x < ny * nx := by
  calc y * nx + x < y * nx + nx := by omega
    _ = (y + 1) * nx := by ring
    _ ≤ ny * nx := Nat.mul_le_mul_right _ hy

theorem mem_pixels {α : Type} {a : A2 α} {v : α} :
    v ∈ pixels a ↔ ∃ y x, y < a.ny ∧ x < a.nx ∧ a.px y x = v := by
  simp only [pixels, List.mem_flatMap, List.mem_map, List.mem_range]
  constructor
  · rintro ⟨y, hy, x, hx, h⟩; exact ⟨y, x, hy, hx, h⟩
  · rintro ⟨y, x, hy, hx, h⟩; exact ⟨y, hy, x, hx, h⟩

section
variable {K : Type} [LinearOrder K]

theorem min?_spec {l : List K} {m : K} (h : l.min? = some m) : m ∈ l ∧ ∀ v ∈ l, m ≤ v := by
  rw [List.min?_eq_some_iff] at h
  exact h

theorem max?_spec {l : List K} {m : K} (h : l.max? = some m) : m ∈ l ∧ ∀ v ∈ l, v ≤ m := by
  rw [List.max?_eq_some_iff] at h
  exact h

end

theorem npWhere_mem {ny nx : Nat} {m : Nat → Nat → Bool} {y x : Nat} :
    (y, x) ∈ npWhere ny nx m ↔ y < ny ∧ x < nx ∧ m y x = true := by
  simp [npWhere]

theorem npWhere_sorted (ny nx : Nat) (m : Nat → Nat → Bool) :
    (npWhere ny nx m).Pairwise (fun p q => p.1 < q.1 ∨ (p.1 = q.1 ∧ p.2 < q.2)) := by
  unfold npWhere
  have hy : (List.range ny).Pairwise (· < ·) := List.pairwise_lt_range
  have hx : (List.range nx).Pairwise (· < ·) := List.pairwise_lt_range
  generalize List.range ny = l at *
  induction l with
  | nil => simp
  | cons y ys ih =>
    rw [List.flatMap_cons, List.pairwise_append]
    rw [List.pairwise_cons] at hy
    refine ⟨?_, ih hy.2, ?_⟩
    · rw [List.pairwise_map]
      exact (hx.filter _).imp (fun {a b} h => Or.inr ⟨rfl, h⟩)
    · rintro ⟨a, b⟩ ha ⟨c, d⟩ hc
      simp only [List.mem_map, List.mem_filter, List.mem_range, Prod.mk.injEq, List.mem_flatMap] at ha hc
      obtain ⟨_, _, rfl, _⟩ := ha
      obtain ⟨c', hc', _, _, rfl, _⟩ := hc
      exact Or.inl (hy.1 c' hc')

end ImageUtils
end Verif
