import Verif.Props.C90
import Verif.Props.C38
/-!
# C91: the file of a vertical slice prints the model
-/
set_option autoImplicit false
namespace Goosli
open Flt R3 Spec

theorem jobsFrom_points (k : Nat) (layers : List (Layer XR)) :
    (jobsFrom k layers).map (fun j => j.path.points) =
      (layers.flatMap fun l => l.paths ++ l.middlePs ++ l.innerPs ++ l.fill).map Path.points := by
  induction layers generalizing k with
  | nil => rfl
  | cons l t ih =>
    simp [jobsFrom, ih, layerJobs, layerSections, Function.comp_def]

theorem flatMap_range {β γ δ : Type} (f : β → List δ) (g : γ → List δ) : ∀ (l : List β) (d : Nat → γ),
    (∀ i b, l[i]? = some b → f b = g (d i)) → l.flatMap f = ((List.range l.length).map d).flatMap g
  | [], _, _ => rfl
  | b :: t, d, h => by
    rw [List.length_cons, List.range_succ_eq_map, List.map_cons, List.map_map, List.flatMap_cons, List.flatMap_cons, h 0 b rfl,
      flatMap_range f g t (d ∘ Nat.succ) fun i c hc => h (i + 1) c (by simpa using hc)]

section General
variable [FltText XR]

/-- what a layer with contours `cs` and fill lines `segs` prints: the sides of the contours, then the fill lines -/
def printOf (d : List (List R3) × List (R3 × R3)) : List (R3 × R3) := d.1.flatMap adjPairs ++ d.2

/-- **C91.** As `C90_print_partial`, if all levels are good: the file exists, and a printer that reads it prints, layer by layer from the bottom up,
exactly the sides of the contours and the fill lines of the model at the heights of the levels, if their coordinates change by
nothing or by at least 0.001 (otherwise it does not, `C38_nozzle_violated`); levels left out are without material. -/
theorem C91_file_partial [CleanText XR] (S : Sorter) (A : Arrival XR) (ts : List RTri) (sett : Settings XR) (hs : sett.supportsOn = false)
    (hw : Watertight ts) (hdeg : ∀ t ∈ ts, t.nrm ≠ 0) (hsm : ∀ w ∈ allVerts ts, w.small) (lo hi t lw M : ℝ)
    (he : Extent ts ⟨0, 0, 1⟩ lo hi) (hh : sett.layerHeight = XR.fin t) (ht : 0 < t) (htl : t < hi - lo) (hb : ⌈(hi - lo) / t⌉ < 2 ^ 63)
    (hlw : sett.gs.lineWidth = XR.fin lw) (hd : patternDensity sett ≠ 0)
    (hsp : FillBounds ts (100 / (patternDensity sett : ℝ) * lw) M) (hfp : FillBounds ts lw M)
    (hall : ∀ m n : Nat, (n : ℤ) = ⌈(hi - lo) / t⌉ → m < n → GoodLevel ts (lo + ((m : ℝ) + 1 / 2) * ((hi - lo) / n))) :
    ∃ (g : Gcode XR) (text : String) (sparse full : List (R3 × R3)) (ds : List (List (List R3) × List (R3 × R3))) (k n : Nat),
      sliceByVectorToGcode S A (rmesh ts) (R3.mk 0 0 1).vec sett = .ok g ∧ g.text = .ok text ∧
      calcFillPlanes (rmesh ts) sett = (sparse.map planeOf, full.map planeOf) ∧ (∀ f ∈ sparse ++ full, f.2.z = 0 ∧ f.2 ≠ 0) ∧
      (n : ℤ) = ⌈(hi - lo) / t⌉ ∧ k ≤ 1 ∧ k + ds.length ≤ n ∧ n ≤ k + ds.length + 1 ∧
      (∀ i d, ds[i]? = some d → SectionIsModel ⟨0, 0, lo + (((k + i : ℕ) : ℝ) + 1 / 2) * ((hi - lo) / n)⟩ ts
        (planesOfLayer sett sparse full ds.length i) d.1 d.2) ∧
      (∀ m < n, m < k ∨ k + ds.length ≤ m → NoMaterial ts (lo + ((m : ℝ) + 1 / 2) * ((hi - lo) / n))) ∧
      ∀ p : Printer, p.tool = 0 → (∀ d ∈ ds, ∀ q ∈ printOf d, coarse q.1 q.2) →
        printedSegments p (parseText text) = (ds.flatMap printOf).map fun q => (printed q.1, printed q.2) := by
  obtain ⟨layers, sparse, full, n, h1, h2, h3, h4, ⟨k, k1, k2, k3, k4⟩, h5⟩ :=
    C90_print_partial S A ts sett hs hw hdeg hsm lo hi t lw M he hh ht htl hb hlw hd hsp hfp
  have hord : ∀ (i : Nat) (l : Layer XR), layers[i]? = some l → l.order = ((k + i : ℕ) : ℤ) := by
    intro i l h
    have : (layers.map Layer.order)[i]? = some l.order := by simp [h]
    obtain ⟨hi', -⟩ := List.getElem?_eq_some_iff.1 h
    rw [k2, List.getElem?_map, List.getElem?_range' hi'] at this
    simp at this
    rw [← this]; push_cast; ring
  have hlayer : ∀ (i : Nat) (l : Layer XR), layers[i]? = some l →
      LayerIsModel ⟨0, 0, lo + (((k + i : ℕ) : ℝ) + 1 / 2) * ((hi - lo) / n)⟩ ts (planesOfLayer sett sparse full layers.length i) l := by
    intro i l h
    obtain ⟨hi', -⟩ := List.getElem?_eq_some_iff.1 h
    rcases h5 (k + i) (by omega) (hall _ _ h4 (by omega)) with ⟨i', l', e1, e2, e3⟩ | ⟨-, e, -⟩
    · have := hord _ _ e1
      rw [this] at e2
      have : i' = i := by
        have : k + i' = k + i := by exact_mod_cast e2
        omega
      subst this
      rw [h] at e1
      injection e1 with e1
      subst e1
      exact e3
    · exact absurd (hord i l h) (e l (List.mem_of_getElem? h))
  have hex : ∀ i : Nat, ∃ d : List (List R3) × List (R3 × R3), ∀ l, layers[i]? = some l → l.paths = d.1.map rpath ∧ l.middlePs = [] ∧ l.innerPs = [] ∧
      l.fill = d.2.map (fun s => rpath [s.1, s.2]) ∧ SectionIsModel ⟨0, 0, lo + (((k + i : ℕ) : ℝ) + 1 / 2) * ((hi - lo) / n)⟩ ts
        (planesOfLayer sett sparse full layers.length i) d.1 d.2 := by
    intro i
    cases h : layers[i]? with
    | none => exact ⟨([], []), fun l hl => by cases hl⟩
    | some l =>
      obtain ⟨cs, segs, hl⟩ := hlayer i l h
      exact ⟨(cs, segs), fun l' hl' => by injection hl' with e; subst e; exact hl⟩
  choose d hd' using hex
  obtain ⟨ds, hds⟩ : ∃ ds, ds = (List.range layers.length).map d := ⟨_, rfl⟩
  have hlen : ds.length = layers.length := by rw [hds]; simp
  have hget : ∀ i e, ds[i]? = some e → i < layers.length ∧ e = d i := by
    intro i e h
    rw [hds, List.getElem?_map] at h
    by_cases hi' : i < layers.length
    · rw [List.getElem?_range hi'] at h
      injection h with h
      exact ⟨hi', h.symm⟩
    · rw [List.getElem?_eq_none (by simp; omega)] at h
      cases h
  have hflat : (layers.flatMap fun l => l.paths ++ l.middlePs ++ l.innerPs ++ l.fill) =
      (ds.flatMap fun e => e.1 ++ e.2.map fun s => [s.1, s.2]).map rpath := by
    rw [hds, List.map_flatMap]
    apply flatMap_range
    intro i l h
    obtain ⟨e1, e2, e3, e4, -⟩ := hd' i l h
    simp [e1, e2, e3, e4]
  have hjobs : (allJobs ((Gcode.new sett.gs).addLayers layers).cmds).map (fun j => j.path.points) =
      (ds.flatMap fun e => e.1 ++ e.2.map fun s => [s.1, s.2]).map fun l => l.map R3.pt := by
    have : allLayers ((Gcode.new sett.gs).addLayers layers).cmds = layers := by
      simp [allLayers, Gcode.addLayers, Gcode.add, Gcode.new]
    unfold allJobs
    rw [this, jobsFrom_points, hflat, List.map_map]
    rfl
  have hsec : ∀ i e, ds[i]? = some e → SectionIsModel ⟨0, 0, lo + (((k + i : ℕ) : ℝ) + 1 / 2) * ((hi - lo) / n)⟩ ts
        (planesOfLayer sett sparse full ds.length i) e.1 e.2 := by
    intro i e h
    obtain ⟨hi', rfl⟩ := hget i e h
    rw [hlen]
    exact (hd' i _ (List.getElem?_eq_getElem hi')).2.2.2.2
  obtain ⟨ls, hls⟩ := toOutput_total (sett := sett.gs) ((Gcode.new sett.gs).addLayers layers).cmds (by
    intro j hj
    have : j.path.points ∈ (allJobs ((Gcode.new sett.gs).addLayers layers).cmds).map (fun j => j.path.points) := List.mem_map_of_mem hj
    rw [hjobs] at this
    obtain ⟨w, hw', hwe⟩ := List.mem_map.1 this
    rw [← hwe]
    obtain ⟨e, he', hwe'⟩ := List.mem_flatMap.1 hw'
    obtain ⟨i, hi'⟩ := List.mem_iff_getElem?.1 he'
    rcases List.mem_append.1 hwe' with h | h
    · simpa using ((hsec i e hi').1.1 w h).1
    · obtain ⟨s, -, rfl⟩ := List.mem_map.1 h
      simp)
  have htext : ((Gcode.new sett.gs).addLayers layers).text = .ok (renderAll ls) := by
    have hls : ((Gcode.new sett.gs).addLayers layers).toOutput = .ok ls := hls
    simp only [Gcode.text, hls, bind, Except.bind]
    rfl
  refine ⟨_, _, sparse, full, ds, k, n, h1, htext, h2, h3, h4, k1, by omega, by omega, hsec, ?_, ?_⟩
  · intro m hm hout
    rcases h5 m hm (hall _ _ h4 hm) with ⟨i, l, e1, e2, -⟩ | ⟨-, -, e⟩
    · have := hord _ _ e1
      rw [this] at e2
      obtain ⟨hi', -⟩ := List.getElem?_eq_some_iff.1 e1
      have : k + i = m := by exact_mod_cast e2
      omega
    · exact e
  · intro p hp hc
    rw [C38_nozzle_partial _ _ htext p hp _ hjobs]
    · congr 1
      rw [List.flatMap_assoc]
      refine List.flatMap_congr fun e _ => ?_
      unfold printOf
      rw [List.flatMap_append, List.flatMap_map]
      congr 1
      simp [adjPairs]
    · intro l hl q hq
      obtain ⟨e, he', hl⟩ := List.mem_flatMap.1 hl
      refine hc e he' q ?_
      unfold printOf
      rcases List.mem_append.1 hl with h | h
      · exact List.mem_append_left _ (List.mem_flatMap.2 ⟨l, h, hq⟩)
      · obtain ⟨s, hs', rfl⟩ := List.mem_map.1 h
        simp [adjPairs] at hq
        subst hq
        exact List.mem_append_right _ hs'

end General

/-! ## Non-vacuity -/

theorem exTetra_corner {z : ℝ} (hz : z = 1 ∨ z = 3) {a : R3} (h : CrossPoint ⟨0, 0, z⟩ ⟨0, 0, 1⟩ exTetra a) :
    a.round8 = ⟨4 - z, 0, z⟩ ∨ a.round8 = ⟨0, 4 - z, z⟩ ∨ a.round8 = ⟨0, 0, z⟩ := by
  obtain ⟨e, he, hc, rfl⟩ := h
  have r0 : r8 0 = 0 := by simpa using r8_int 0
  have r1 : r8 1 = 1 := by simpa using r8_int 1
  have r3 : r8 3 = 3 := by simpa using r8_int 3
  have e1 : (4 : ℝ) - 1 = 3 := by norm_num
  have e3 : (4 : ℝ) - 3 = 1 := by norm_num
  have h0 : 0 < z ∧ z < 4 := by rcases hz with rfl | rfl <;> norm_num
  rcases exTetra_at h0.1 h0.2 he hc with ⟨-, h⟩ | ⟨-, h⟩ | ⟨-, h⟩ <;> rw [h] <;> rcases hz with rfl | rfl <;>
    simp [R3.round8, r0, r1, r3, e1, e3]

theorem exTetra_coarse {z : ℝ} (hz : z = 1 ∨ z = 3) {a b : R3} (ha : a = ⟨4 - z, 0, z⟩ ∨ a = ⟨0, 4 - z, z⟩ ∨ a = ⟨0, 0, z⟩)
    (hb : b = ⟨4 - z, 0, z⟩ ∨ b = ⟨0, 4 - z, z⟩ ∨ b = ⟨0, 0, z⟩) : coarse a b := by
  unfold coarse
  rcases hz with rfl | rfl <;> rcases ha with rfl | rfl | rfl <;> rcases hb with rfl | rfl | rfl <;> norm_num

/-- a fill line of the tetrahedron that is on a plane at a multiple of 5 ends at corners -/
theorem exTetra_end {z : ℝ} (hz : z = 1 ∨ z = 3) {cs : List (List R3)} (hb : BoundMaterial ⟨0, 0, z⟩ ⟨0, 0, 1⟩ exTetra cs) {f : R3 × R3}
    (hf : ∃ k : ℤ, f = (((k : ℝ) * 5) • R3.ex, R3.ex)) {w : R3} (hw : R3.height f.1 f.2 w = 0)
    (he : ∃ c ∈ cs, ∃ q ∈ sides c, R3.height f.1 f.2 q.1 ≠ R3.height f.1 f.2 q.2 ∧ R3.onSegment q.1 q.2 w) :
    w = ⟨4 - z, 0, z⟩ ∨ w = ⟨0, 4 - z, z⟩ ∨ w = ⟨0, 0, z⟩ := by
  obtain ⟨k, rfl⟩ := hf
  obtain ⟨c, hc, q, hq, hne, t, t0, t1, rfl⟩ := he
  have hcor : ∀ w ∈ c, w = ⟨4 - z, 0, z⟩ ∨ w = ⟨0, 4 - z, z⟩ ∨ w = ⟨0, 0, z⟩ := by
    intro w hw
    obtain ⟨a, ha, rfl⟩ := (hb.1 c hc).2.2 w hw
    exact exTetra_corner hz ha
  have h1 := hcor _ (mem_sides hq).1
  have h2 := hcor _ (mem_sides hq).2
  obtain ⟨a, b⟩ := q
  have hx : ∀ u : R3, R3.height (((k : ℝ) * 5) • R3.ex) R3.ex u = u.x - k * 5 := by
    intro u; simp [R3.height, R3.dot, R3.ex]
  rw [hx] at hw
  rw [hx, hx] at hne
  have hz1 : 1 ≤ 4 - z ∧ 4 - z ≤ 3 := by rcases hz with rfl | rfl <;> norm_num
  have hk : ∀ x : ℝ, 0 ≤ x → x ≤ 3 → x = k * 5 → x = 0 := by
    intro x x0 x3 h
    have : k = 0 := by
      have a1 : (k : ℝ) < 1 := by linarith
      have a2 : (-1 : ℝ) < k := by linarith
      have : k < 1 := by exact_mod_cast a1
      have : -1 < k := by exact_mod_cast a2
      omega
    rw [h, this]; simp
  have hw0 : (a + t • (b - a)).x = 0 := by
    refine hk _ ?_ ?_ (by linarith)
    · rcases h1 with rfl | rfl | rfl <;> rcases h2 with rfl | rfl | rfl <;> simp <;> nlinarith
    · rcases h1 with rfl | rfl | rfl <;> rcases h2 with rfl | rfl | rfl <;> simp <;> nlinarith
  have hne' : a.x ≠ b.x := fun h => hne (by rw [show (a, b).1 = a from rfl, show (a, b).2 = b from rfl, h])
  have : t = 0 ∨ t = 1 := by
    simp at hw0
    rcases h1 with rfl | rfl | rfl <;> rcases h2 with rfl | rfl | rfl <;> simp at hne' hw0
    · right; nlinarith
    · right; nlinarith
    · left; rcases hw0 with h | h
      · exact h
      · exact absurd h (by linarith)
    · left; rcases hw0 with h | h
      · exact h
      · exact absurd h (by linarith)
  rcases this with rfl | rfl
  · have : a + (0 : ℝ) • (b - a) = a := by apply R3.ext <;> simp
    rw [this]; exact h1
  · have : a + (1 : ℝ) • (b - a) = b := by apply R3.ext <;> simp
    rw [this]; exact h2

section Example
attribute [local instance] XR.text XR.text_clean XR.text_decimal

/-- the tetrahedron in layers of at most 3, filled at multiples of 5: the file prints the model -/
example (S : Sorter) (A : Arrival XR) :
    ∃ (g : Gcode XR) (text : String) (ds : List (List (List R3) × List (R3 × R3))),
      sliceByVectorToGcode S A (rmesh exTetra) (R3.mk 0 0 1).vec (exampleSettings 3) = .ok g ∧ g.text = .ok text ∧ ds ≠ [] ∧
      printedSegments Printer.init (parseText text) = (ds.flatMap printOf).map fun q => (printed q.1, printed q.2) := by
  obtain ⟨h1, h2, h3, -, -⟩ := exTetra_ok
  have hn : ⌈((4 : ℝ) - 0) / 3⌉ = 2 := by rw [Int.ceil_eq_iff]; norm_num
  have hd : patternDensity (exampleSettings 3) = 20 := by unfold patternDensity exampleSettings; decide
  have hz : ∀ m : Nat, m < 2 → (0 : ℝ) + ((m : ℝ) + 1 / 2) * ((4 - 0) / ((2 : ℕ) : ℝ)) = 1 ∨ (0 : ℝ) + ((m : ℝ) + 1 / 2) * ((4 - 0) / ((2 : ℕ) : ℝ)) = 3 := by
    intro m hm
    have : m = 0 ∨ m = 1 := by omega
    rcases this with rfl | rfl <;> norm_num
  obtain ⟨g, text, sparse, full, ds, k, n, g1, g2, g3, -, g4, g5, g6, g7, g8, gn, g9⟩ :=
    C91_file_partial S A exTetra (exampleSettings 3) rfl h1 h2 h3 0 4 3 1 4 exTetra_extent rfl
    (by norm_num) (by norm_num) (by rw [hn]; norm_num) rfl (by rw [hd]; decide)
    (exTetra_fill _ (by rw [hd]; norm_num)) (exTetra_fill _ le_rfl) (by
      intro m n h hm
      rw [hn] at h
      have : n = 2 := by exact_mod_cast h
      subst this
      rcases hz m hm with h | h <;> rw [h] <;> exact exTetra_good (by norm_num) (by norm_num))
  rw [hn] at g4
  have : n = 2 := by exact_mod_cast g4
  subst this
  have hin : 0 < ds.length := by
    by_contra h
    have := gn 0 (by norm_num) (Or.inr (by
      by_contra h'
      have := gn 0 (by norm_num) (by omega)
      rw [show (0 : ℝ) + (((0 : ℕ) : ℝ) + 1 / 2) * ((4 - 0) / ((2 : ℕ) : ℝ)) = 1 by norm_num] at this
      exact this _ rfl exTetra_material.1 exTetra_material.2.1 exTetra_material.2.2.1))
    rw [show (0 : ℝ) + (((0 : ℕ) : ℝ) + 1 / 2) * ((4 - 0) / ((2 : ℕ) : ℝ)) = 1 by norm_num] at this
    exact this _ rfl exTetra_material.1 exTetra_material.2.1 exTetra_material.2.2.1
  refine ⟨g, text, ds, g1, g2, by rintro rfl; simp at hin, g9 _ rfl ?_⟩
  intro d hd' q hq
  obtain ⟨i, hi⟩ := List.mem_iff_getElem?.1 hd'
  obtain ⟨hi', -⟩ := List.getElem?_eq_some_iff.1 hi
  have hm := g8 i d hi
  obtain ⟨z, hz1, hm⟩ : ∃ z : ℝ, (z = 1 ∨ z = 3) ∧ SectionIsModel ⟨0, 0, z⟩ exTetra (planesOfLayer (exampleSettings 3) sparse full ds.length i) d.1 d.2 :=
    ⟨_, hz (k + i) (by omega), hm⟩
  obtain ⟨hb, lines, l, hl, hfa, hend, -⟩ := hm
  rcases List.mem_append.1 hq with h | h
  · obtain ⟨c, hc, hqc⟩ := List.mem_flatMap.1 h
    have hcor : ∀ w ∈ c, w = ⟨4 - z, 0, z⟩ ∨ w = ⟨0, 4 - z, z⟩ ∨ w = ⟨0, 0, z⟩ := by
      intro w hw
      obtain ⟨a, ha, rfl⟩ := (hb.1 c hc).2.2 w hw
      exact exTetra_corner hz1 ha
    have hmem : q.1 ∈ c ∧ q.2 ∈ c := by
      obtain ⟨a, b⟩ := q
      have := List.of_mem_zip hqc
      exact ⟨this.1, List.mem_of_mem_tail this.2⟩
    exact exTetra_coarse hz1 (hcor _ hmem.1) (hcor _ hmem.2)
  · obtain ⟨u, hu, hqu⟩ : ∃ u ∈ l, q = u ∨ q = u.swap := by
      obtain ⟨j, hj⟩ := List.mem_iff_getElem?.1 h
      obtain ⟨u, hu, hr⟩ := forall₂_get hfa j q hj
      exact ⟨u, List.mem_of_getElem? hu, hr⟩
    obtain ⟨f, hf, huf⟩ := List.mem_flatMap.1 (hl.mem_iff.1 hu)
    have hfs : f ∈ sparse := by
      unfold planesOfLayer at hf
      rwa [if_neg (by simp [exampleSettings]; omega)] at hf
    have hgrid : ∃ k : ℤ, f = (((k : ℝ) * 5) • R3.ex, R3.ex) := by
      obtain ⟨k₀, n₀, r, -, he, -⟩ := C45_grid (exTetra_fill 5 (by norm_num)) R3.ex
      have : planeOf f ∈ (calcFillPlanes (rmesh exTetra) (exampleSettings 3)).1 := by rw [g3]; exact List.mem_map_of_mem hfs
      have e : (calcFillPlanes (rmesh exTetra) (exampleSettings 3)).1 = calcFillPlanesCommon (rmesh exTetra) R3.ex.vec (XR.fin 5) := by
        unfold calcFillPlanes calcFillPlanesLines exampleSettings
        dsimp only
        rw [if_pos rfl, axisX_vec]
        congr 1
        unfold fillStep
        simp
        rw [XR.fin_div (by norm_num)]
        simp
        norm_num
      rw [e, he] at this
      obtain ⟨i, -, hp⟩ := List.mem_map.1 this
      unfold planeOf at hp
      obtain ⟨e1, e2⟩ := Plane.mk.inj hp
      refine ⟨k₀ + i, Prod.ext ?_ (R3.vec_inj e2).symm⟩
      rw [← R3.pt_inj e1]
      push_cast; rfl
    have k1 := hend f hf u huf u.1 (Or.inl rfl)
    have k2 := hend f hf u huf u.2 (Or.inr rfl)
    have c1 := exTetra_end hz1 hb hgrid k1.1 k1.2
    have c2 := exTetra_end hz1 hb hgrid k2.1 k2.2
    rcases hqu with rfl | rfl
    · exact exTetra_coarse hz1 c1 c2
    · exact exTetra_coarse hz1 c2 c1
end Example

end Goosli
