import Verif.Str

/-! Helper lemmas about strings: decimal numerals are injective, also when zero padded. -/

namespace Verif

/-- Value of a string of decimal digits. -/
def digitsVal (s : Str) : Nat := s.foldl (fun acc c => acc * 10 + (c.toNat - 48)) 0

theorem digitChar_val {d : Nat} (h : d < 10) : (digitChar d).toNat - 48 = d := by
  have : d = 0 ∨ d = 1 ∨ d = 2 ∨ d = 3 ∨ d = 4 ∨ d = 5 ∨ d = 6 ∨ d = 7 ∨ d = 8 ∨ d = 9 := by omega
  rcases this with rfl | rfl | rfl | rfl | rfl | rfl | rfl | rfl | rfl | rfl <;> rfl

theorem digitsVal_append_single (s : Str) (c : Char) :
    digitsVal (s ++ [c]) = digitsVal s * 10 + (c.toNat - 48) := by
  simp [digitsVal]

theorem digitsVal_natStr (n : Nat) : digitsVal (natStr n) = n := by
  induction n using Nat.strongRecOn with
  | _ n ih =>
    unfold natStr
    split
    · rename_i h
      simp [digitsVal, digitChar_val h]
    · rename_i h
      rw [digitsVal_append_single, ih (n / 10) (by omega), digitChar_val (Nat.mod_lt n (by omega))]
      omega

theorem digitsVal_zeros (k : Nat) (s : Str) : digitsVal (List.replicate k '0' ++ s) = digitsVal s := by
  induction k with
  | zero => simp
  | succ k ih =>
    rw [List.replicate_succ, List.cons_append]
    simpa [digitsVal] using ih

theorem zfill_natStr_inj {w m n : Nat} (h : zfill w (natStr m) = zfill w (natStr n)) : m = n := by
  have := congrArg digitsVal h
  simpa [zfill, digitsVal_zeros, digitsVal_natStr] using this

theorem natStr_inj {m n : Nat} (h : natStr m = natStr n) : m = n := by
  have := congrArg digitsVal h
  simpa [digitsVal_natStr] using this

theorem pathJoin_inj {d f g : Str} (hh : f.head? = g.head?) (h : pathJoin d f = pathJoin d g) :
    f = g := by
  unfold pathJoin at h
  rw [hh] at h
  split at h
  · exact h
  · split at h
    · exact List.append_cancel_left h
    · exact List.append_cancel_left h

end Verif
