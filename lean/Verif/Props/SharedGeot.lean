import Verif.Model.SharedGeot
import Verif.Props.Geotiff

/-! C149: the two directions of a geotiff calculator belong together, whatever happens to the list its geotransform came from. -/

set_option linter.unusedSectionVars false

namespace Verif.Geotiff
open Verif ImageUtils

variable {K : Type} [Field K] [LinearOrder K] [IsStrictOrderedRing K]

/-- The operation gives calculator `k` a geotransform. -/
def GeoOp.Sets (k : Nat) : GeoOp K → Prop
  | .setGeot j _ => j = k
  | _ => False

/-- The operation assigns elements of list `a`. -/
def GeoOp.Assigns (a : Nat) : GeoOp K → Prop
  | .assign b _ => b = a
  | _ => False

theorem step_calc (w : GeoWorld K) (op : GeoOp K) (k : Nat) (c : CalcRef K) (g : GeoT K) (hc : w.calcs[k]? = some c) (hg : w.cells[c.cell]? = some g)
    (h1 : ¬ op.Sets k) (h2 : ¬ op.Assigns c.cell) : (w.step op).calcs[k]? = some c ∧ (w.step op).cells[c.cell]? = some g := by
  have hk : k < w.calcs.length := (List.getElem?_eq_some_iff.mp hc).1
  have ha : c.cell < w.cells.length := (List.getElem?_eq_some_iff.mp hg).1
  cases op with
  | newList g' =>
    exact ⟨hc, by show (w.cells ++ [g'])[c.cell]? = _; rw [List.getElem?_append_left ha]; exact hg⟩
  | newCalc a nx ny =>
    unfold GeoWorld.step
    simp only []
    split
    · exact ⟨by rw [List.getElem?_append_left hk]; exact hc, hg⟩
    · exact ⟨hc, hg⟩
  | setGeot j a =>
    have hj : j ≠ k := fun e => h1 e
    unfold GeoWorld.step
    simp only []
    split
    · exact ⟨by simp only []; rw [List.getElem?_set_ne hj]; exact hc, hg⟩
    · exact ⟨hc, hg⟩
  | assign b g' =>
    have hb : b ≠ c.cell := fun e => h2 e
    exact ⟨hc, by show (w.cells.set b g')[c.cell]? = _; rw [List.getElem?_set_ne hb]; exact hg⟩

theorem run_calc (ops : List (GeoOp K)) : ∀ (w : GeoWorld K) (k : Nat) (c : CalcRef K) (g : GeoT K), w.calcs[k]? = some c → w.cells[c.cell]? = some g →
    (∀ op ∈ ops, ¬ op.Sets k ∧ ¬ op.Assigns c.cell) → (w.run ops).calcs[k]? = some c ∧ (w.run ops).cells[c.cell]? = some g := by
  induction ops with
  | nil => intro w k c g h1 h2 _; exact ⟨h1, h2⟩
  | cons op ops ih =>
    intro w k c g h1 h2 h3
    obtain ⟨e1, e2⟩ := step_calc w op k c g h1 h2 (h3 op List.mem_cons_self).1 (h3 op List.mem_cons_self).2
    exact ih (w.step op) k c g e1 e2 (fun o ho => h3 o (List.mem_cons_of_mem _ ho))

theorem calc_of (w : GeoWorld K) (k : Nat) (c : CalcRef K) (g : GeoT K) (hc : w.calcs[k]? = some c) (hg : w.cells[c.cell]? = some g) :
    w.calc k = some ⟨g, c.inv, c.npixX, c.npixY⟩ := by
  unfold GeoWorld.calc
  simp only [hc, hg]

/-- PARTIAL (the list is not assigned to afterwards): from the `set_geot` on, whatever else the program does, pixel to world is the geotransform given, and world
to pixel its inverse, until the next `set_geot` on that calculator. -/
theorem C149_kept_partial (w : GeoWorld K) (k a : Nat) (c : CalcRef K) (g : GeoT K) (hg : w.cells[a]? = some g) (hc : w.calcs[k]? = some c)
    (ops : List (GeoOp K)) (h : ∀ op ∈ ops, ¬ op.Sets k ∧ ¬ op.Assigns a) :
    ((w.step (.setGeot k a)).run ops).calc k = some (mkCalc g c.npixX c.npixY) := by
  have hk : k < w.calcs.length := (List.getElem?_eq_some_iff.mp hc).1
  have hs : w.step (.setGeot k a) = { w with calcs := w.calcs.set k { c with cell := a, inv := invGeoT g } } := by
    unfold GeoWorld.step
    simp only [hg, hc]
  obtain ⟨e1, e2⟩ := run_calc ops (w.step (.setGeot k a)) k { c with cell := a, inv := invGeoT g } g
    (by rw [hs]; simp only []; rw [List.getElem?_set_self hk]) (by rw [hs]; exact hg) h
  exact calc_of _ k _ g e1 e2

/-- PARTIAL: the same from the calculator's creation on. -/
theorem C149_created_partial (w : GeoWorld K) (a nx ny : Nat) (g : GeoT K) (hg : w.cells[a]? = some g) (ops : List (GeoOp K))
    (h : ∀ op ∈ ops, ¬ op.Sets w.calcs.length ∧ ¬ op.Assigns a) :
    ((w.step (.newCalc a nx ny)).run ops).calc w.calcs.length = some (mkCalc g nx ny) := by
  have hs : w.step (.newCalc a nx ny) = { w with calcs := w.calcs ++ [⟨a, invGeoT g, nx, ny⟩] } := by
    unfold GeoWorld.step
    simp only [hg]
  obtain ⟨e1, e2⟩ := run_calc ops (w.step (.newCalc a nx ny)) w.calcs.length ⟨a, invGeoT g, nx, ny⟩ g
    (by rw [hs]; simp) (by rw [hs]; exact hg) h
  exact calc_of _ _ _ g e1 e2

/-- Two affine maps agree everywhere only when they are the same. -/
theorem geo_ext (g g' : GeoT K) (h : ∀ x y : K, (g.g0 + x * g.g1 + y * g.g2, g.g3 + x * g.g4 + y * g.g5) = (g'.g0 + x * g'.g1 + y * g'.g2, g'.g3 + x * g'.g4 + y * g'.g5)) :
    g = g' := by
  have a := h 0 0
  have b := h 1 0
  have c := h 0 1
  simp only [zero_mul, one_mul, add_zero, Prod.mk.injEq] at a b c
  obtain ⟨a0, a3⟩ := a
  obtain ⟨b0, b3⟩ := b
  obtain ⟨c0, c3⟩ := c
  cases g; cases g'
  simp only at *
  subst a0 a3
  simp only [add_right_inj] at b0 b3 c0 c3
  subst b0 b3 c0 c3
  rfl

/-- C149, exactly: after elements of its list have been assigned to (geotransform `g` before, `g'` now) pixel to world uses the new elements and world to pixel the
old ones; the two undo each other exactly when nothing was changed. -/
theorem C149_exact (w : GeoWorld K) (k a nx ny : Nat) (g g' : GeoT K) (hi : Invertible g) (hg : w.cells[a]? = some g)
    (hc : w.calcs[k]? = some ⟨a, invGeoT g, nx, ny⟩) :
    ∃ c, (w.step (.assign a g')).calc k = some c ∧ (∀ x y, c.pixelToWorld x y = (mkCalc g' nx ny).pixelToWorld x y) ∧
      (∀ lon lat, c.worldToPixel lon lat = (mkCalc g nx ny).worldToPixel lon lat) ∧
      ((∀ x y, c.worldToPixel (c.pixelToWorld x y).1 (c.pixelToWorld x y).2 = .ok (x, y)) ↔ g' = g) := by
  have ha : a < w.cells.length := (List.getElem?_eq_some_iff.mp hg).1
  have e := calc_of (w.step (.assign a g')) k ⟨a, invGeoT g, nx, ny⟩ g' hc
    (by show (w.cells.set a g')[a]? = _; rw [List.getElem?_set_self ha])
  refine ⟨_, e, fun _ _ => rfl, fun _ _ => rfl, fun h => ?_, ?_⟩
  · refine geo_ext g' g (fun x y => ?_)
    have h1 := h x y
    change (mkCalc g nx ny).worldToPixel (g'.g0 + x * g'.g1 + y * g'.g2) (g'.g3 + x * g'.g4 + y * g'.g5) = .ok (x, y) at h1
    obtain ⟨x', y', q1, q2⟩ := C17_world_roundtrip g hi nx ny (g'.g0 + x * g'.g1 + y * g'.g2) (g'.g3 + x * g'.g4 + y * g'.g5)
    rw [h1] at q1
    cases q1
    exact q2.symm
  · rintro rfl x y
    exact C17_pixel_roundtrip g' hi nx ny x y

/-- FALSE: "images made from one list, changed between them, keep their own georeferencing": the first image's pixels are placed where the second one's are, whatever
the geotransforms, and its world-to-pixel queries are still answered for the place it was made for. -/
theorem C149_two_images_false (w : GeoWorld K) (a nx ny nx' ny' : Nat) (g g' : GeoT K) (hg : w.cells[a]? = some g) :
    ∃ c c', (w.run [.newCalc a nx ny, .assign a g', .newCalc a nx' ny']).calc w.calcs.length = some c ∧
      (w.run [.newCalc a nx ny, .assign a g', .newCalc a nx' ny']).calc (w.calcs.length + 1) = some c' ∧
      (∀ x y, c.pixelToWorld x y = c'.pixelToWorld x y) ∧ (∀ x y, c'.pixelToWorld x y = (mkCalc g' nx' ny').pixelToWorld x y) ∧
      ∀ lon lat, c.worldToPixel lon lat = (mkCalc g nx ny).worldToPixel lon lat := by
  have ha : a < w.cells.length := (List.getElem?_eq_some_iff.mp hg).1
  have hset : (w.cells.set a g')[a]? = some g' := List.getElem?_set_self ha
  have hrun : w.run [.newCalc a nx ny, .assign a g', .newCalc a nx' ny'] =
      ⟨w.cells.set a g', w.calcs ++ [⟨a, invGeoT g, nx, ny⟩] ++ [⟨a, invGeoT g', nx', ny'⟩]⟩ := by
    unfold GeoWorld.run
    simp only [List.foldl_cons, List.foldl_nil, GeoWorld.step, hg, hset]
  refine ⟨⟨g', invGeoT g, nx, ny⟩, mkCalc g' nx' ny', ?_, ?_, fun _ _ => rfl, fun _ _ => rfl, fun _ _ => rfl⟩
  · rw [hrun]
    exact calc_of _ _ ⟨a, invGeoT g, nx, ny⟩ g' (by simp) hset
  · rw [hrun]
    exact calc_of _ _ ⟨a, invGeoT g', nx', ny'⟩ g' (by simp) hset

example : ∃ (w : GeoWorld ℚ) (g : GeoT ℚ), w.cells[0]? = some g ∧ Invertible g ∧ w.calcs[0]? = some ⟨0, invGeoT g, 10, 10⟩ :=
  ⟨⟨[⟨10, 2, 1, 20, -1, -3⟩], [⟨0, invGeoT ⟨10, 2, 1, 20, -1, -3⟩, 10, 10⟩]⟩, _, rfl, by norm_num [Invertible], rfl⟩

end Verif.Geotiff
