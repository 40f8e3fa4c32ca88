import Verif.Base

/-! Helper lemmas about the Python notions of `Verif.Base`. -/

namespace Verif

theorem bind_ok {α β : Type} {x : Py α} {f : α → Py β} {b : β} (h : (x >>= f) = .ok b) :
    ∃ a, x = .ok a ∧ f a = .ok b := by
  cases x with
  | error e => simp [bind, Except.bind] at h
  | ok a => exact ⟨a, rfl, h⟩

theorem ok_bind {α β : Type} (a : α) (f : α → Py β) : ((Except.ok a : Py α) >>= f) = f a := rfl

theorem error_bind {α β : Type} (e : Err) (f : α → Py β) :
    ((Except.error e : Py α) >>= f) = .error e := rfl

theorem pyIdx_ok_iff (n : Nat) (i : Int) (k : Nat) : pyIdx n i = .ok k ↔ PyAt n i k := by
  unfold pyIdx PyAt
  split
  · simp only [Except.ok.injEq]; omega
  · split
    · simp only [Except.ok.injEq]; omega
    · simp; omega

theorem pyIdx_nat {n k : Nat} (h : k < n) : pyIdx n (k : Int) = .ok k := by
  rw [pyIdx_ok_iff]; exact ⟨h, Or.inl rfl⟩

theorem pyIdx_total {n : Nat} {i : Int} (h1 : -(n : Int) ≤ i) (h2 : i < n) :
    ∃ k, pyIdx n i = .ok k := by
  unfold pyIdx
  split
  · exact ⟨_, rfl⟩
  · split
    · exact ⟨_, rfl⟩
    · omega

theorem mem_sortedSet {xs : List Int} {a : Int} : a ∈ sortedSet xs ↔ a ∈ xs := by
  simp [sortedSet]

theorem sortedSet_pairwise (xs : List Int) : (sortedSet xs).Pairwise (· < ·) := by
  have h1 : (sortedSet xs).Pairwise (· ≤ ·) := List.pairwise_insertionSort _ _
  have h2 : (sortedSet xs).Nodup :=
    (List.perm_insertionSort (· ≤ ·) xs.dedup).nodup_iff.mpr (List.nodup_dedup xs)
  exact (h1.and h2).imp (fun {a b} h => lt_of_le_of_ne h.1 h.2)

theorem pyArange_pos {n : Nat} {step : Int} (hs : 0 < step) :
    ∃ l, pyArange n step = .ok l ∧ ∀ u, u ∈ l ↔ ∃ k : Nat, u = (k : Int) * step ∧ u < n := by
  refine ⟨_, by unfold pyArange; rw [if_neg (by omega), if_neg (by omega)], ?_⟩
  intro u
  obtain ⟨s, rfl⟩ := Int.eq_ofNat_of_zero_le hs.le
  have hs' : 0 < s := by omega
  simp only [List.mem_map, List.mem_range, Int.toNat_natCast]
  constructor
  · rintro ⟨k, hk, rfl⟩
    refine ⟨k, rfl, ?_⟩
    rw [Nat.lt_div_iff_mul_lt hs'] at hk
    have : k * s < n := by omega
    exact_mod_cast this
  · rintro ⟨k, rfl, hk⟩
    refine ⟨k, ?_, rfl⟩
    have : k * s < n := by exact_mod_cast hk
    rw [Nat.lt_div_iff_mul_lt hs']
    omega

/-- A strictly increasing list is determined position-wise: consecutive entries have no member
strictly between them. -/
theorem pairwise_lt_consecutive {l : List Int} (h : l.Pairwise (· < ·)) {k : Nat}
    (hk : k + 1 < l.length) {u : Int} (hu : u ∈ l) (h1 : l[k] < u) : l[k+1] ≤ u := by
  obtain ⟨m, hm, rfl⟩ := List.mem_iff_getElem.mp hu
  rw [List.pairwise_iff_getElem] at h
  by_cases hkm : m ≤ k
  · rcases Nat.lt_or_eq_of_le hkm with h' | h'
    · have := h m k hm (by omega) h'; omega
    · subst h'; omega
  · rcases Nat.lt_or_eq_of_le (Nat.lt_of_not_le hkm : k+1 ≤ m) with h' | h'
    · exact (h (k+1) m hk hm h').le
    · subst h'; exact le_refl _

end Verif
