import Verif.Lemmas.ReadersLines

/-! Helper lemmas about the pix4d readers. -/

set_option linter.unusedVariables false

namespace Verif.Readers
open Verif Verif.TextUtils Verif.Envi

theorem contains_iff (sub s : Str) : contains sub s = true ↔ sub <:+: s := by
  have key : ∀ s : Str, findStr sub s ≠ -1 ↔ sub <:+: s := by
    intro s
    induction s with
    | nil =>
      unfold findStr
      by_cases h : sub = []
      · simp [h]
      · simp [h]
    | cons c s ih =>
      unfold findStr
      by_cases h : sub.isPrefixOf (c :: s) = true
      · rw [if_pos h]
        simp only [ne_eq, show ¬ ((0 : Int) = -1) by decide, not_false_eq_true, true_iff]
        exact (List.isPrefixOf_iff_prefix.1 h).isInfix
      · rw [if_neg h, List.infix_cons_iff]
        have hp : ¬ sub <+: c :: s := fun e => h (List.isPrefixOf_iff_prefix.2 e)
        have hge := findStr_ge sub s
        constructor
        · intro g
          right
          rw [← ih]
          intro e
          rw [if_pos e] at g
          exact g rfl
        · rintro (g | g)
          · exact absurd g hp
          · have g' := ih.2 g
            rw [if_neg g']
            omega
  unfold contains
  rw [decide_eq_true_eq]
  exact key s

/-! ### Blocks of the internal parameters -/

/-- A camera block: the line naming the camera and the lines after it. -/
structure Block where
  head : Str
  body : List Str

/-- The lines of the blocks. -/
def Block.lines (bs : List Block) : List Str := bs.flatMap (fun b => b.head :: b.body)

theorem starts_skip (search : Str) (n : Nat) (l rest : List Str) (h : ∀ x ∈ l, ¬ search <:+: x) :
    starts search n (l ++ rest) = starts search (n + l.length) rest := by
  induction l generalizing n with
  | nil => rfl
  | cons a l ih =>
    rw [List.cons_append, starts, if_neg (fun e => h a List.mem_cons_self ((contains_iff _ _).1 e)),
      ih (n + 1) (fun x hx => h x (List.mem_cons_of_mem _ hx))]
    congr 1
    simp; omega

/-- What is read of the blocks: all lines but the last of the last block. -/
def readBodies : List Block → List (List Str)
  | [] => []
  | [b] => [b.body.dropLast]
  | b :: bs => b.body :: readBodies bs

theorem starts_blocks (search : Str) (lines : List Str) : ∀ (bs : List Block) (n : Nat),
    (∀ b ∈ bs, search <:+: b.head ∧ ∀ x ∈ b.body, ¬ search <:+: x) → lines.drop n = Block.lines bs → n + (Block.lines bs).length = lines.length →
    ((starts search n (Block.lines bs)).zip ((starts search n (Block.lines bs)).drop 1 ++ [lines.length - 1])).map
      (fun p => (lines.drop (p.1 + 1)).take (p.2 - (p.1 + 1))) = readBodies bs := by
  intro bs
  induction bs with
  | nil => intro n _ _ _; rfl
  | cons b bs ih =>
    intro n h hd hlen
    have hb := h b List.mem_cons_self
    have e : Block.lines (b :: bs) = b.head :: (b.body ++ Block.lines bs) := by simp [Block.lines]
    have hs : starts search n (Block.lines (b :: bs)) = n :: starts search (n + 1 + b.body.length) (Block.lines bs) := by
      rw [e, starts, if_pos ((contains_iff _ _).2 hb.1), starts_skip search _ _ _ hb.2]
    have hd1 : lines.drop (n + 1) = b.body ++ Block.lines bs := by
      rw [← List.drop_drop, hd, e]
      rfl
    have hlen' : n + 1 + b.body.length + (Block.lines bs).length = lines.length := by
      rw [e] at hlen
      simp at hlen
      omega
    have hd2 : lines.drop (n + 1 + b.body.length) = Block.lines bs := by
      rw [← List.drop_drop, hd1]
      simp
    rw [hs]
    cases bs with
    | nil =>
      simp only [Block.lines, List.flatMap_nil, List.append_nil, starts, List.drop_succ_cons, List.drop_zero, List.nil_append,
        List.zip_cons_cons, List.zip_nil_right, List.map_cons, List.map_nil, readBodies] at hd1 hlen' ⊢
      congr 1
      rw [hd1, List.dropLast_eq_take, show lines.length - 1 - (n + 1) = b.body.length - 1 by simp at hlen'; omega]
    | cons b2 bs =>
      have hb2 := h b2 (by simp)
      have e2 : Block.lines (b2 :: bs) = b2.head :: (b2.body ++ Block.lines bs) := by simp [Block.lines]
      have hs2 : starts search (n + 1 + b.body.length) (Block.lines (b2 :: bs)) =
          (n + 1 + b.body.length) :: starts search (n + 1 + b.body.length + 1 + b2.body.length) (Block.lines bs) := by
        rw [e2, starts, if_pos ((contains_iff _ _).2 hb2.1), starts_skip search _ _ _ hb2.2]
      have ih' := ih (n + 1 + b.body.length) (fun x hx => h x (List.mem_cons_of_mem _ hx)) hd2 hlen'
      rw [hs2] at ih' ⊢
      simp only [List.drop_succ_cons, List.drop_zero, List.cons_append, List.zip_cons_cons, List.map_cons] at ih' ⊢
      rw [ih', hd1]
      have : (b.body ++ Block.lines (b2 :: bs)).take (n + 1 + b.body.length - (n + 1)) = b.body := by
        rw [show n + 1 + b.body.length - (n + 1) = b.body.length by omega, List.take_left]
      rw [this]
      rfl

theorem readInternalLines_eq {F : Type} (pf : Str → Option F) (search : Str) (pre : List Str) (bs : List Block)
    (hp : ∀ x ∈ pre, ¬ search <:+: x) (hb : ∀ b ∈ bs, search <:+: b.head ∧ ∀ x ∈ b.body, ¬ search <:+: x)
    (hne : pre ++ Block.lines bs ≠ []) :
    readInternalLines pf search (pre ++ Block.lines bs) = (readBodies bs).mapM (internalBlock pf) := by
  unfold readInternalLines
  rw [if_neg hne]
  simp only []
  rw [starts_skip search 0 pre _ hp, Nat.zero_add]
  have key := starts_blocks search (pre ++ Block.lines bs) bs pre.length hb (by simp) (by simp)
  rw [← key, List.mapM_map]
  rfl

/-! ### Items of a block -/

theorem internalLine_comment {F : Type} (pf : Str → Option F) (d : Dict F) (l : Str) (h : ['#'] <+: l) (hf : ¬ "Focal Length mm".toList <:+: l) :
    internalLine pf d l = .ok d := by
  unfold internalLine
  rw [if_pos (List.isPrefixOf_iff_prefix.2 h), if_neg (fun e => hf ((contains_iff _ _).1 e))]

theorem internalLine_param {F : Type} (pf : Str → Option F) (d : Dict F) (key val : Str) (v : F) (hk : ' ' ∉ key) (hv : ' ' ∉ val)
    (h : ¬ ['#'] <+: key ++ ' ' :: val) (hp : pf val = some v) : internalLine pf d (key ++ ' ' :: val) = .ok (setKey d key v) := by
  unfold internalLine
  rw [if_neg (fun e => h (List.isPrefixOf_iff_prefix.1 e)), splitOn_append ' ' key val hk, splitOn_single ' ' val hv]
  simp only []
  rw [toFloat_ok.2 hp, ok_bind]

theorem afterLastSpace_eq (s t : Str) (h : ' ' ∉ t) : afterLastSpace (s ++ ' ' :: t) = t := by
  have : ∀ (a b : Str), ' ' ∉ a → (a ++ ' ' :: b).takeWhile (· ≠ ' ') = a := by
    intro a b h
    induction a with
    | nil => simp
    | cons c a ih =>
      rw [List.cons_append, List.takeWhile_cons_of_pos (by
        simp only [ne_eq, decide_eq_true_eq]
        exact fun e => h (e ▸ List.mem_cons_self)), ih (fun m => h (List.mem_cons_of_mem _ m))]
  unfold afterLastSpace
  rw [List.reverse_append, List.reverse_cons, List.append_assoc, List.singleton_append, this _ _ (by simpa using h), List.reverse_reverse]

theorem replace_mm (t : Str) (h : 'm' ∉ t) : replaceStr ['m', 'm'] [] (t ++ ['m', 'm']) = t := by
  induction t with
  | nil =>
    rw [List.nil_append, replaceStr, if_pos (by decide)]
    simp [replaceStr]
  | cons c t ih =>
    have hc : c ≠ 'm' := fun e => h (e ▸ List.mem_cons_self)
    rw [List.cons_append, replaceStr, if_neg (by simp [List.isPrefixOf, Ne.symm hc]), ih (fun m => h (List.mem_cons_of_mem _ m))]

theorem internalLine_focal {F : Type} (pf : Str → Option F) (d : Dict F) (s wt ht : Str) (w h : F)
    (hs : ['#'] <+: s) (hf : "Focal Length mm".toList <:+: s ++ ' ' :: (wt ++ 'x' :: (ht ++ "mm".toList)))
    (hw1 : ' ' ∉ wt ∧ 'x' ∉ wt ∧ 'm' ∉ wt) (hh1 : ' ' ∉ ht ∧ 'x' ∉ ht ∧ 'm' ∉ ht) (hw : pf wt = some w) (hh : pf ht = some h) :
    internalLine pf d (s ++ ' ' :: (wt ++ 'x' :: (ht ++ "mm".toList))) =
      .ok (setKey (setKey d "fpa_width_mm".toList w) "fpa_height_mm".toList h) := by
  have h1 : afterLastSpace (s ++ ' ' :: (wt ++ 'x' :: (ht ++ "mm".toList))) = (wt ++ 'x' :: ht) ++ ['m', 'm'] := by
    rw [afterLastSpace_eq]
    · simp
    · intro m
      rcases List.mem_append.1 m with m | m
      · exact hw1.1 m
      · rcases List.mem_cons.1 m with e | m
        · exact absurd e (by decide)
        · rcases List.mem_append.1 m with m | m
          · exact hh1.1 m
          · revert m; decide
  have h2 : replaceStr "mm".toList [] ((wt ++ 'x' :: ht) ++ ['m', 'm']) = wt ++ 'x' :: ht := by
    refine replace_mm _ ?_
    intro m
    rcases List.mem_append.1 m with m | m
    · exact hw1.2.2 m
    · rcases List.mem_cons.1 m with e | m
      · exact absurd e (by decide)
      · exact hh1.2.2 m
  unfold internalLine
  rw [if_pos (List.isPrefixOf_iff_prefix.2 (hs.trans (List.prefix_append _ _))), if_pos ((contains_iff _ _).2 hf), h1, h2,
    splitOn_append 'x' wt ht hw1.2.1, splitOn_single 'x' ht hh1.2.1]
  simp only []
  rw [toFloat_ok.2 hw, ok_bind, toFloat_ok.2 hh, ok_bind]

/-! ### File names -/

theorem splitextRoot_eq (root ext : Str) (he : '.' ∉ ext) (hr : ∃ c ∈ root, c ≠ '.') : splitextRoot (root ++ '.' :: ext) = root := by
  have : ∀ (a b : Str), '.' ∉ a → (a ++ '.' :: b).dropWhile (fun c => c ≠ '.') = '.' :: b := by
    intro a b h
    induction a with
    | nil => simp
    | cons c a ih =>
      rw [List.cons_append, List.dropWhile_cons_of_pos (by
        simp only [ne_eq, decide_eq_true_eq]
        exact fun e => h (e ▸ List.mem_cons_self)), ih (fun m => h (List.mem_cons_of_mem _ m))]
  unfold splitextRoot
  simp only []
  rw [List.reverse_append, List.reverse_cons, List.append_assoc, List.singleton_append, this _ _ (by simpa using he)]
  simp only []
  rw [if_neg, List.reverse_reverse]
  obtain ⟨c, hc, hn⟩ := hr
  simp only [List.all_reverse, List.all_eq_true, decide_eq_true_eq, not_forall]
  exact ⟨c, hc, hn⟩

theorem splitOn_last (c : Char) (a b : Str) (h : c ∉ b) : (splitOn c (a ++ c :: b)).getLast? = some b := by
  induction a with
  | nil =>
    rw [List.nil_append, splitOn, if_pos rfl, splitOn_single c b h]
    rfl
  | cons x a ih =>
    rw [List.cons_append]
    unfold splitOn
    by_cases hx : x = c
    · rw [if_pos hx]
      obtain ⟨u, us, e⟩ := List.exists_cons_of_ne_nil (splitOn_ne c (a ++ c :: b))
      rw [e] at ih ⊢
      rw [List.getLast?_cons_cons, ih]
    · rw [if_neg hx]
      obtain ⟨u, us, e⟩ := List.exists_cons_of_ne_nil (splitOn_ne c (a ++ c :: b))
      rw [e] at ih ⊢
      cases us with
      | nil =>
        exfalso
        have := (splitOn_iff c (a ++ c :: b) [u]).1 e
        have h2 : a ++ c :: b = u := by simpa [List.intercalate] using this.2.1
        exact this.2.2 u (by simp) (h2 ▸ by simp)
      | cons v vs =>
        simp only []
        rw [List.getLast?_cons_cons] at ih ⊢
        exact ih

theorem cameraText_eq (stem d ext : Str) (hd : '_' ∉ d) (he : '.' ∉ ext) (hne : ∃ c ∈ stem ++ '_' :: d, c ≠ '.') :
    cameraText (stem ++ '_' :: (d ++ '.' :: ext)) = d := by
  unfold cameraText
  have : stem ++ '_' :: (d ++ '.' :: ext) = (stem ++ '_' :: d) ++ '.' :: ext := by simp
  rw [this, splitextRoot_eq _ _ he hne, splitOn_last '_' stem d hd]
  rfl

theorem parseInt_digit (c : Char) (h : isDig c = true) : parseInt [c] = some ((c.toNat - 48 : Nat) : Int) := by
  have hw : isWs c = false := by
    unfold isDig at h
    simp only [decide_eq_true_eq] at h
    unfold isWs
    have h1 : 48 ≤ c.toNat := h.1
    have : ∀ d : Char, d.toNat < 48 → c ≠ d := by
      intro d hd e
      rw [e] at h1
      omega
    simp [this ' ' (by decide), this '\t' (by decide), this '\n' (by decide), this '\r' (by decide), this '\x0b' (by decide),
      this '\x0c' (by decide), this '\x1c' (by decide), this '\x1d' (by decide), this '\x1e' (by decide), this '\x1f' (by decide)]
  have hs : strip [c] = [c] := by
    unfold strip rstrip lstrip
    simp [hw]
  have hm : c ≠ '-' := by
    rintro rfl
    revert h; decide
  have hp : c ≠ '+' := by
    rintro rfl
    revert h; decide
  unfold parseInt
  rw [hs]
  simp only []
  split
  · rename_i r e; exact absurd (List.cons.inj e).1 hm
  · rename_i r e; exact absurd (List.cons.inj e).1 hp
  · simp [h]

end Verif.Readers
