import Verif.Model.MicaHistory
import Verif.Props.Micasense

/-! C145, C146: MicaSense images made from arrays one after another. -/

namespace Verif.Micasense
open Verif Envi TextUtils Readers ImageUtils

variable {K : Type}

/-! ### Specification -/

/-- What a file holds after a list of writes to a disk: the latest write to it, else what it held before. -/
def heldAfter (before : Str → Option (A2 K)) : List (Str × A2 K) → Str → Option (A2 K)
  | [], g => before g
  | w :: ws, g => heldAfter (fun g => if g = w.1 then some w.2 else before g) ws g

/-- The writes of a call for an array with two rows or more: the bands in order, each to its file, as far as the names go. -/
def Request.writes (r : Request K) : List (Str × A2 K) :=
  match r.names with
  | some l => (List.range (min r.img.nb l.length)).map (fun b => (pathJoin r.dir (l.getD b []), bandOf r.img b))
  | none => (List.range r.img.nb).map (fun b => (pathJoin r.dir (r.fresh b), bandOf r.img b))

/-- There is a name for every band. -/
def Request.Named (r : Request K) : Prop := ∀ l, r.names = some l → r.img.nb ≤ l.length

/-! ### Lemmas -/

theorem heldAfter_append (ws vs : List (Str × A2 K)) : ∀ (before : Str → Option (A2 K)) (g : Str),
    heldAfter before (ws ++ vs) g = heldAfter (heldAfter before ws) vs g := by
  induction ws with
  | nil => intro _ _; rfl
  | cons w ws ih => intro before g; exact ih _ g

theorem heldAfter_none (ws : List (Str × A2 K)) (g : Str) (h : ∀ w ∈ ws, w.1 ≠ g) : ∀ before : Str → Option (A2 K), heldAfter before ws g = before g := by
  induction ws with
  | nil => intro _; rfl
  | cons w ws ih =>
    intro before
    show heldAfter _ ws g = _
    rw [ih (fun w hw => h w (List.mem_cons_of_mem _ hw))]
    simp [Ne.symm (h w List.mem_cons_self)]

theorem heldAfter_last (ws vs : List (Str × A2 K)) (w : Str × A2 K) (h : ∀ v ∈ vs, v.1 ≠ w.1) (before : Str → Option (A2 K)) :
    heldAfter before (ws ++ w :: vs) w.1 = some w.2 := by
  rw [heldAfter_append]
  show heldAfter _ vs w.1 = _
  rw [heldAfter_none vs w.1 h]
  simp

/-- The answer is that of `from_numpy_and_pix4d` and so is the disk when it answers. -/
theorem writeBandsIO_eq (dir : Str) (names : Option (List Str)) (fresh : Nat → Str) (img : A3 K) :
    ∀ (todo b : Nat) (fs : Dict (A2 K)) (out : List Str),
      writeBands dir names fresh img todo b fs out =
        (writeBandsIO dir names fresh img todo b fs out).2.map (fun files => ((writeBandsIO dir names fresh img todo b fs out).1, files)) := by
  intro todo
  induction todo with
  | zero => intro b fs out; rfl
  | succ n ih =>
    intro b fs out
    unfold writeBands writeBandsIO
    cases h1 : bandFile dir names fresh b with
    | error e => rfl
    | ok fn =>
      rw [ok_bind]
      cases h2 : savedBand (⟨img.ny, img.nx, fun y x => img.px y x b⟩ : A2 K) with
      | error e => rfl
      | ok a => rw [ok_bind]; exact ih _ _ _

theorem savedBand_big (img : A3 K) (h : 2 ≤ img.ny) (b : Nat) :
    savedBand (⟨img.ny, img.nx, fun y x => img.px y x b⟩ : A2 K) = .ok (bandOf img b) := by
  unfold savedBand
  rw [if_neg (by simp only []; omega), if_neg (by simp only []; omega)]
  rfl

/-- The loop with a name for every band: the disk, the answer. -/
theorem writeBandsIO_named (dir : Str) (names : Option (List Str)) (fresh : Nat → Str) (img : A3 K) (f : Nat → Str) (hbig : 2 ≤ img.ny) :
    ∀ (todo b : Nat) (fs : Dict (A2 K)) (out : List Str), (∀ k, b ≤ k → k < b + todo → target dir names fresh k = some (f k)) →
      (writeBandsIO dir names fresh img todo b fs out).2 = .ok (out ++ (List.range todo).map (fun k => f (b + k))) ∧
      ∀ g, lookup (writeBandsIO dir names fresh img todo b fs out).1 g =
        heldAfter (lookup fs) ((List.range todo).map (fun k => (f (b + k), bandOf img (b + k)))) g := by
  intro todo
  induction todo with
  | zero => intro b fs out _; exact ⟨by simp [writeBandsIO], fun g => rfl⟩
  | succ n ih =>
    intro b fs out ht
    have e1 := (bandFile_ok dir names fresh b (f b)).2 (ht b le_rfl (by omega))
    obtain ⟨h1, h2⟩ := ih (b + 1) (setKey fs (f b) (bandOf img b)) (out ++ [f b]) (fun k hk1 hk2 => ht k (by omega) (by omega))
    have he : writeBandsIO dir names fresh img (n + 1) b fs out =
        writeBandsIO dir names fresh img n (b + 1) (setKey fs (f b) (bandOf img b)) (out ++ [f b]) := by
      conv_lhs => unfold writeBandsIO
      rw [e1]
      simp only []
      rw [savedBand_big img hbig b]
    have hk : ∀ k, b + 1 + k = b + (k + 1) := by intro k; omega
    rw [he]
    refine ⟨?_, fun g => ?_⟩
    · rw [h1, List.range_succ_eq_map, List.map_cons, List.map_map, List.append_assoc]
      simp only [hk]
      rfl
    · rw [h2 g, List.range_succ_eq_map, List.map_cons, List.map_map]
      simp only [hk]
      show _ = heldAfter (fun g => if g = f b then some (bandOf img b) else lookup fs g) _ g
      have : lookup (setKey fs (f b) (bandOf img b)) = fun g => if g = f b then some (bandOf img b) else lookup fs g := by
        funext g; rw [lookup_setKey]
      rw [this]
      rfl

/-- The loop running out of names. -/
theorem writeBandsIO_short (dir : Str) (l : List Str) (fresh : Nat → Str) (img : A3 K) (hbig : 2 ≤ img.ny) :
    ∀ (todo b : Nat) (fs : Dict (A2 K)) (out : List Str), l.length < b + todo → b ≤ l.length →
      (writeBandsIO dir (some l) fresh img todo b fs out).2 = .error .indexError ∧
      ∀ g, lookup (writeBandsIO dir (some l) fresh img todo b fs out).1 g =
        heldAfter (lookup fs) ((List.range (l.length - b)).map (fun k => (pathJoin dir (l.getD (b + k) []), bandOf img (b + k)))) g := by
  intro todo
  induction todo with
  | zero => intro b fs out h1 h2; omega
  | succ n ih =>
    intro b fs out h1 h2
    rcases Nat.eq_or_lt_of_le h2 with he | hlt
    · have e : bandFile dir (some l) fresh b = .error .indexError := bandFile_err dir (some l) fresh b (by unfold target; simp [he])
      have : writeBandsIO dir (some l) fresh img (n + 1) b fs out = (fs, .error .indexError) := by
        conv_lhs => unfold writeBandsIO
        rw [e]
      rw [this, he, Nat.sub_self]
      exact ⟨rfl, fun g => rfl⟩
    · have e : bandFile dir (some l) fresh b = .ok (pathJoin dir (l.getD b [])) := by
        unfold bandFile
        simp [hlt]
      have he : writeBandsIO dir (some l) fresh img (n + 1) b fs out =
          writeBandsIO dir (some l) fresh img n (b + 1) (setKey fs (pathJoin dir (l.getD b [])) (bandOf img b)) (out ++ [pathJoin dir (l.getD b [])]) := by
        conv_lhs => unfold writeBandsIO
        rw [e]
        simp only []
        rw [savedBand_big img hbig b]
      obtain ⟨q1, q2⟩ := ih (b + 1) (setKey fs (pathJoin dir (l.getD b [])) (bandOf img b)) (out ++ [pathJoin dir (l.getD b [])]) (by omega) (by omega)
      have hk : ∀ k, b + 1 + k = b + (k + 1) := by intro k; omega
      rw [he]
      refine ⟨q1, fun g => ?_⟩
      rw [q2 g, show l.length - b = (l.length - (b + 1)) + 1 by omega, List.range_succ_eq_map, List.map_cons, List.map_map]
      simp only [hk]
      show _ = heldAfter (fun g => if g = pathJoin dir (l.getD b []) then some (bandOf img b) else lookup fs g) _ g
      have : lookup (setKey fs (pathJoin dir (l.getD b [])) (bandOf img b)) =
          fun g => if g = pathJoin dir (l.getD b []) then some (bandOf img b) else lookup fs g := by
        funext g; rw [lookup_setKey]
      rw [this]
      rfl

/-! ### C146: one call -/

/-- C146.  A call for an array with two rows or more writes its bands in order as far as the names go, and no other file: afterwards every file holds the last
of these writes to it, or what it held before.  It answers with its files exactly when there is a name for every band; otherwise it raises IndexError. -/
theorem C146_effect (r : Request K) (hbig : 2 ≤ r.img.ny) (fs : Dict (A2 K)) :
    (∀ g, lookup (r.run fs).1 g = heldAfter (lookup fs) r.writes g) ∧
    (r.Named → (r.run fs).2 = .ok (r.writes.map Prod.fst)) ∧ (¬ r.Named → (r.run fs).2 = .error .indexError) := by
  unfold Request.run Request.writes Request.Named
  cases hn : r.names with
  | none =>
    obtain ⟨h1, h2⟩ := writeBandsIO_named r.dir none r.fresh r.img (fun b => pathJoin r.dir (r.fresh b)) hbig r.img.nb 0 fs [] (fun k _ _ => rfl)
    simp only [Nat.zero_add] at h1 h2
    refine ⟨h2, fun _ => ?_, fun h => absurd (fun l hl => by cases hl) h⟩
    rw [h1, List.map_map]
    rfl
  | some l =>
    by_cases hs : r.img.nb ≤ l.length
    · obtain ⟨h1, h2⟩ := writeBandsIO_named r.dir (some l) r.fresh r.img (fun b => pathJoin r.dir (l.getD b [])) hbig r.img.nb 0 fs []
        (fun k _ hk => by unfold target; simp [show k < l.length by omega])
      simp only [Nat.zero_add] at h1 h2
      simp only [Nat.min_eq_left hs]
      refine ⟨h2, fun _ => ?_, fun h => absurd (fun l' hl => by cases hl; exact hs) h⟩
      rw [h1, List.map_map]
      rfl
    · obtain ⟨h1, h2⟩ := writeBandsIO_short r.dir l r.fresh r.img hbig r.img.nb 0 fs [] (by omega) (Nat.zero_le _)
      simp only [Nat.zero_add, Nat.sub_zero] at h1 h2
      simp only [Nat.min_eq_right (show l.length ≤ r.img.nb by omega)]
      exact ⟨h2, fun h => absurd (h l rfl) hs, fun _ => h1⟩

/-- C146: the answer, and the disk of a call that answers, are those of C90. -/
theorem C146_same (r : Request K) (fs : Dict (A2 K)) :
    fromNumpy r.dir r.names r.fresh r.img fs = (r.run fs).2.map (fun files => ((r.run fs).1, files)) :=
  writeBandsIO_eq r.dir r.names r.fresh r.img r.img.nb 0 fs []

/-- FALSE: "a call that raises leaves the disk as it was": with one name too few, the file of the first band has been overwritten. -/
theorem C146_failed_call_false : ∃ (r : Request Int) (fs : Dict (A2 Int)) (a a' : A2 Int), (r.run fs).2 = .error .indexError ∧
    lookup fs "/tmp/a.tif".toList = some a ∧ lookup (r.run fs).1 "/tmp/a.tif".toList = some a' ∧ a.px 0 0 = 5 ∧ a'.px 0 0 = 0 :=
  ⟨⟨"/tmp".toList, some ["a.tif".toList], fun _ => [], ⟨2, 2, 2, fun _ _ b => b⟩⟩, [("/tmp/a.tif".toList, ⟨2, 2, fun _ _ => 5⟩)], _, _, rfl, rfl, rfl,
    rfl, rfl⟩

/-! ### C145: a history of calls -/

theorem runRequests_append (rs qs : List (Request K)) : ∀ fs : Dict (A2 K),
    runRequests (rs ++ qs) fs = ((runRequests qs (runRequests rs fs).1).1, (runRequests rs fs).2 ++ (runRequests qs (runRequests rs fs).1).2) := by
  induction rs with
  | nil => intro fs; rfl
  | cons r rs ih =>
    intro fs
    show ((runRequests (rs ++ qs) (r.run fs).1).1, (r.run fs).2 :: (runRequests (rs ++ qs) (r.run fs).1).2) = _
    rw [ih]
    rfl

theorem runRequests_length (rs : List (Request K)) : ∀ fs : Dict (A2 K), (runRequests rs fs).2.length = rs.length := by
  induction rs with
  | nil => intro fs; rfl
  | cons r rs ih =>
    intro fs
    show ((r.run fs).2 :: (runRequests rs (r.run fs).1).2).length = _
    rw [List.length_cons, ih, List.length_cons]

/-- C145.  After any history of calls for arrays with two rows or more, whether they answered or raised, every file holds the last band written to it by any of
them, in the order of the calls and of the bands, or what it held at the start. -/
theorem C145_history (rs : List (Request K)) (hbig : ∀ r ∈ rs, 2 ≤ r.img.ny) : ∀ (fs : Dict (A2 K)) (g : Str),
    lookup (runRequests rs fs).1 g = heldAfter (lookup fs) (rs.flatMap Request.writes) g := by
  induction rs with
  | nil => intro fs g; rfl
  | cons r rs ih =>
    intro fs g
    show lookup (runRequests rs (r.run fs).1).1 g = _
    rw [ih (fun q hq => hbig q (List.mem_cons_of_mem _ hq)), List.flatMap_cons, heldAfter_append]
    congr 1
    funext g
    exact (C146_effect r (hbig r List.mem_cons_self) fs).1 g

/-- C145: a band of an image made earlier is read back as it was, by position or counted from the end, when neither a later band of the same call nor any later
call writes to its file. -/
theorem C145_kept_partial (rs qs : List (Request K)) (r : Request K) (hbig : ∀ q ∈ rs ++ r :: qs, 2 ≤ q.img.ny) (hn : r.Named) (fs : Dict (A2 K)) (i : Int)
    (b : Nat) (hib : PyAt r.img.nb i b) (hsame : ∀ (c : Nat) w v, b < c → r.writes[b]? = some w → r.writes[c]? = some v → v.1 ≠ w.1)
    (hlater : ∀ q ∈ qs, ∀ v ∈ q.writes, ∀ w, r.writes[b]? = some w → v.1 ≠ w.1) :
    ∃ files, (runRequests (rs ++ r :: qs) fs).2[rs.length]? = some (.ok files) ∧
      readBand (runRequests (rs ++ r :: qs) fs).1 files i = .ok (bandOf r.img b) := by
  have hr : 2 ≤ r.img.ny := hbig r (by simp)
  have hb := hib.1
  have hans : (runRequests (rs ++ r :: qs) fs).2[rs.length]? = some (.ok (r.writes.map Prod.fst)) := by
    rw [runRequests_append, List.getElem?_append_right (by rw [runRequests_length]), runRequests_length, Nat.sub_self]
    show some (r.run (runRequests rs fs).1).2 = _
    rw [(C146_effect r hr _).2.1 hn]
  have hlen : r.writes.length = r.img.nb := by
    unfold Request.writes
    cases h : r.names with
    | none => simp
    | some l => have := hn l h; simp [this]
  have hb' : b < r.writes.length := by omega
  obtain ⟨w, hw⟩ : ∃ w, r.writes[b]? = some w := ⟨_, List.getElem?_eq_getElem hb'⟩
  have hval : w.2 = bandOf r.img b := by
    have hw := hw
    unfold Request.writes at hw
    cases h : r.names with
    | none =>
      rw [h] at hw
      simp only [List.getElem?_map, Option.map_eq_some_iff] at hw
      obtain ⟨c, hc, rfl⟩ := hw
      rw [List.getElem?_range hb] at hc
      cases hc; rfl
    | some l =>
      have hl := hn l h
      rw [h] at hw
      simp only [List.getElem?_map, Option.map_eq_some_iff, Nat.min_eq_left hl] at hw
      obtain ⟨c, hc, rfl⟩ := hw
      rw [List.getElem?_range hb] at hc
      cases hc; rfl
  refine ⟨_, hans, ?_⟩
  have hsplit : r.writes = r.writes.take b ++ w :: r.writes.drop (b + 1) := by
    have : w = r.writes[b] := by rw [List.getElem?_eq_getElem hb'] at hw; exact (Option.some.inj hw).symm
    rw [this, ← List.drop_eq_getElem_cons hb', List.take_append_drop]
  have hheld : lookup (runRequests (rs ++ r :: qs) fs).1 w.1 = some (bandOf r.img b) := by
    have key := heldAfter_last (rs.flatMap Request.writes ++ r.writes.take b) (r.writes.drop (b + 1) ++ qs.flatMap Request.writes) w
      (by
        intro v hv
        rcases List.mem_append.mp hv with hv | hv
        · obtain ⟨k, hk⟩ := List.getElem?_of_mem hv
          rw [List.getElem?_drop] at hk
          exact hsame (b + 1 + k) _ v (by omega) hw hk
        · obtain ⟨q, hq, hv⟩ := List.mem_flatMap.mp hv
          exact hlater q hq v hv _ hw) (lookup fs)
    have hl : (rs.flatMap Request.writes ++ r.writes.take b) ++ w :: (r.writes.drop (b + 1) ++ qs.flatMap Request.writes) =
        (rs ++ r :: qs).flatMap Request.writes := by
      rw [List.flatMap_append, List.flatMap_cons]
      conv_rhs => rw [hsplit]
      simp [List.append_assoc]
    rw [C145_history _ hbig, ← hl, key, hval]
  unfold readBand
  rw [List.length_map, hlen, (pyIdx_ok_iff _ _ _).2 hib, ok_bind, List.getElem?_map, hw]
  simp only [Option.map_some]
  rw [hheld]

/-- FALSE: "an image goes on reading its own data": a second image made in the same folder under the same names replaces the first one's. -/
theorem C145_reused_names_false : ∃ (r q : Request Int) (files : List Str) (a : A2 Int), r.Named ∧
    (runRequests [r, q] []).2 = [.ok files, .ok files] ∧ readBand (runRequests [r, q] []).1 files 0 = .ok a ∧ a.px 0 0 = 7 ∧ r.img.px 0 0 0 = 0 :=
  ⟨⟨"/tmp".toList, some ["1.tif".toList], fun _ => [], ⟨2, 2, 1, fun _ _ _ => 0⟩⟩, ⟨"/tmp".toList, some ["1.tif".toList], fun _ => [], ⟨2, 2, 1, fun _ _ _ => 7⟩⟩,
    _, _, by intro l h; cases h; decide, rfl, rfl, rfl, rfl⟩

theorem basePart_join (dir n : Str) (h : '/' ∉ n) : basePart (pathJoin dir n) = n := by
  have hn : ∀ c ∈ n.reverse, (decide (c ≠ '/')) = true := by
    intro c hc
    have := List.mem_reverse.mp hc
    simp only [decide_eq_true_eq]
    rintro rfl; exact h this
  have hp : ['/'].isPrefixOf n = false := by
    cases n with
    | nil => rfl
    | cons c t =>
      have : c ≠ '/' := fun e => h (e ▸ List.mem_cons_self)
      simp [List.isPrefixOf, Ne.symm this]
  have key : ∀ t : Str, basePart (t ++ '/' :: n) = n := by
    intro t
    unfold basePart
    rw [List.reverse_append, List.reverse_cons, List.append_assoc, List.takeWhile_append_of_pos hn]
    simp
  unfold pathJoin
  rw [hp]
  simp only [Bool.false_eq_true, if_false]
  split
  · rename_i hd
    rcases hd with rfl | hd
    · unfold basePart
      rw [List.nil_append, List.takeWhile_eq_self_iff.mpr hn, List.reverse_reverse]
    · obtain ⟨t, rfl⟩ := List.getLast?_eq_some_iff.mp hd
      rw [List.append_assoc]
      exact key t
  · exact key dir

/-- C145: images made without names are all kept, in whatever folders, as long as no uuid is made twice (they are hexadecimal digits, so without a slash). -/
theorem C145_fresh (rs qs : List (Request K)) (r : Request K) (hbig : ∀ q ∈ rs ++ r :: qs, 2 ≤ q.img.ny) (hn : ∀ q ∈ r :: qs, q.names = none)
    (hrel : ∀ q ∈ r :: qs, ∀ c, '/' ∉ q.fresh c) (hinj : ∀ b c, r.fresh b = r.fresh c → b = c)
    (hother : ∀ q ∈ qs, ∀ b c, q.fresh c ≠ r.fresh b) (fs : Dict (A2 K)) (i : Int) (b : Nat) (hib : PyAt r.img.nb i b) :
    ∃ files, (runRequests (rs ++ r :: qs) fs).2[rs.length]? = some (.ok files) ∧
      readBand (runRequests (rs ++ r :: qs) fs).1 files i = .ok (bandOf r.img b) := by
  have hr0 := hn r List.mem_cons_self
  have hat : ∀ q ∈ r :: qs, ∀ (c : Nat) v, q.writes[c]? = some v → basePart v.1 = q.fresh c := by
    intro q hq c v hv
    unfold Request.writes at hv
    rw [hn q hq] at hv
    simp only [List.getElem?_map, Option.map_eq_some_iff] at hv
    obtain ⟨k, hk, rfl⟩ := hv
    obtain ⟨h1, h2⟩ := List.getElem?_eq_some_iff.mp hk
    simp only [List.getElem_range] at h2
    subst h2
    exact basePart_join _ _ (hrel q hq _)
  refine C145_kept_partial rs qs r hbig (by intro l h; rw [hr0] at h; cases h) fs i b hib ?_ ?_
  · intro c w v hbc hw hv he
    have h1 := hat r List.mem_cons_self b w hw
    have h2 := hat r List.mem_cons_self c v hv
    rw [he] at h2
    have := hinj b c (h1.symm.trans h2)
    omega
  · intro q hq v hv w hw he
    obtain ⟨c, hc⟩ := List.getElem?_of_mem hv
    have h1 := hat r List.mem_cons_self b w hw
    have h2 := hat q (List.mem_cons_of_mem _ hq) c v hc
    rw [he] at h2
    exact hother q hq b c (h2.symm.trans h1)

example : ∃ (r q : Request Int), (∀ x ∈ [r, q], 2 ≤ x.img.ny ∧ x.names = none ∧ ∀ c, '/' ∉ x.fresh c) ∧ (∀ b c, r.fresh b = r.fresh c → b = c) ∧
    ∀ b c, q.fresh c ≠ r.fresh b :=
  ⟨⟨"/tmp".toList, none, fun c => 'a' :: List.replicate c 'b', ⟨2, 2, 2, fun _ _ _ => 0⟩⟩, ⟨"/var".toList, none, fun c => 'c' :: List.replicate c 'b', ⟨2, 2, 2, fun _ _ _ => 7⟩⟩,
    by
      intro x hx
      rcases List.mem_cons.mp hx with rfl | hx
      · exact ⟨by decide, rfl, fun c => by simp [List.mem_replicate]⟩
      · rcases List.mem_singleton.mp hx with rfl
        exact ⟨by decide, rfl, fun c => by simp [List.mem_replicate]⟩,
    by intro b c h; simpa using congrArg List.length h, by intro b c h; simp at h⟩

example : ∃ (r q : Request Int), (∀ x ∈ [r, q], 2 ≤ x.img.ny) ∧ r.Named ∧ r.writes.length = 2 ∧ q.writes.length = 2 ∧
    (∀ v ∈ q.writes, ∀ w ∈ r.writes, v.1 ≠ w.1) :=
  ⟨⟨"/tmp".toList, some ["1.tif".toList, "2.tif".toList], fun _ => [], ⟨2, 2, 2, fun _ _ _ => 0⟩⟩,
    ⟨"/tmp".toList, some ["3.tif".toList, "4.tif".toList], fun _ => [], ⟨2, 2, 2, fun _ _ _ => 7⟩⟩, by decide, by intro l h; cases h; decide, rfl, rfl, by decide +kernel⟩

end Verif.Micasense
