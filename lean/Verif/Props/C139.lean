import Verif.Props.C138
/-!
# C139: several bodies, from the file to the moves

The program in `float64` on a file with several closed bodies on a grid.
-/
set_option autoImplicit false
namespace Goosli
open Flt R3 Spec

/-- **C139.** A run of the program in `float64` as in C104 on a file with any number of closed bodies which, moved by the origin, are on a grid and are cut into `n` even layers,
no vertex being in the middle of a layer: it ends normally and writes one file, in which the nozzle is moved layer by layer; a point is inside the contours of a layer exactly if
it is in an odd number of the bodies. A level for which nothing is written has no point in an odd number of bodies. -/
theorem C139_program (M : Machine B64) (fuel : ℕ) (read : String → Option Bytes) (templates : String → Option (List Char))
    (canWrite : String → Bool) (now : String) (fl : GoosliFlags B64) (ts0 : List RTri) (bodies : List (List RTri)) (o : R3) (lo hi t lw : ℝ) (j k n : ℕ)
    (hread : Loads (read fl.stl) (fmesh ts0)) (hF : ∀ w ∈ allVerts ts0, w.isF) (hty : fl.slicingType = "3axes") (ho : o.isF)
    (horg : fl.origin = o.f64v) (hout : canWrite fl.out = true) (htop : (templates "data/header_template.txt").isSome)
    (hbot : (templates "data/footer_template.txt").isSome) (hts : ts0.map (RTri.movedF o) = bodies.flatten) (hb : ∀ b ∈ bodies, Watertight b)
    (hw : Watertight bodies.flatten) (G : GridModel j k bodies.flatten) (he : Extent bodies.flatten zUp lo hi) (E : EvenLayers k n lo hi t) (hn : 2 ≤ n)
    (hoff : ∀ w ∈ allVerts bodies.flatten, ∀ m < n, w.z ≠ lo + (2 * m + 1 : ℕ) * (t / 2))
    (ht : fl.layerHeight = B64.of t) (hs : fl.supportsOn = false)
    (hlw : fl.lineWidth = B64.of lw) (Flw : IsF lw) (l0 : 1 / 50 ≤ lw) (l1 : lw ≤ 10)
    (hd0 : 1 ≤ densityShare fl.fillingType fl.fillDensity) (hd1 : densityShare fl.fillingType fl.fillDensity ≤ 100) :
    ∃ (hd ft : List Char) (text : String) (ds : List (List (List R3) × List (R3 × R3))) (i0 : ℕ),
      runGoosli M fuel read templates canWrite now fl = ⟨[(fl.out, hd ++ text.toList ++ ft)], .ok ()⟩ ∧ i0 ≤ 1 ∧ i0 + ds.length ≤ n ∧ n ≤ i0 + ds.length + 1 ∧
      (∀ (i : ℕ) d, ds[i]? = some d → ∀ x : R3, x.z = lo + ((i0 + i : ℕ) + 1 / 2) * t → FarFromSurface (1 / 10 ^ 8) (lvl x.z) zUp bodies.flatten x →
        OffThinCuts x.z bodies.flatten x → (∀ c ∈ d.1, ¬ OnContour x c) ∧ (InsideOdd x d.1 ↔ InOddBodies x.z bodies x)) ∧
      (∀ m < n, m < i0 ∨ i0 + ds.length ≤ m → ∀ x : R3, x.z = lo + ((m : ℝ) + 1 / 2) * t → FarFromSurface (1 / 10 ^ 8) (lvl x.z) zUp bodies.flatten x →
        OffThinCuts x.z bodies.flatten x → ¬ InOddBodies x.z bodies x) ∧
      ∀ P : Printer, P.tool = 0 → printedMoves P (parseText text) = layersRun 0 ds := by
  obtain ⟨cn, L⟩ := C109_levels G E hoff
  obtain ⟨hd, ft, text, sparse, full, ds, i0, h1, -, -, h4, h5, h6, h7, h8, h9⟩ :=
    C109_program M fuel read templates canWrite now fl ts0 bodies.flatten o lo hi t lw j k n hread hF hty ho horg hout htop hbot hts hw G he E hn hoff ht hs hlw Flw l0 l1 hd0 hd1
  have mat : ∀ m < n, ∀ x : R3, x.z = lo + ((m : ℝ) + 1 / 2) * t → FarFromSurface (1 / 10 ^ 8) (lvl x.z) zUp bodies.flatten x →
      (InMaterial (lvl x.z) zUp bodies.flatten x ↔ InOddBodies x.z bodies x) := by
    intro m hm x hx far
    obtain ⟨e, Sf⟩ := L m (by rw [cn]; exact_mod_cast hm)
    rw [e, ← hx] at Sf
    have good : GoodLevel bodies.flatten x.z := ⟨fun w h hc => Sf.offPlane w h (by rw [height_lvl]; linarith), Sf.wellSep⟩
    exact material_flatten hb hw G.solid Sf.small good rfl far
  refine ⟨hd, ft, text, ds, i0, h1, h4, h5, h6, fun i d hi x hx far thin => ?_, fun m hm hm' x hx far thin => ?_, h9⟩
  · have hm : i0 + i < n := by
      have := (List.getElem?_eq_some_iff.1 hi).1
      omega
    have bm := (h7 i d hi).1
    rw [← hx] at bm
    obtain ⟨b1, b2⟩ := bm.2 x rfl far thin
    exact ⟨b1, b2.trans (mat _ hm x hx far)⟩
  · rw [← mat m hm x hx far]
    have := h8 m hm hm'
    rw [← hx] at this
    exact this x rfl far thin

private theorem xor_disjoint {a b : Prop} (h : ¬ (a ∧ b)) : ¬ (a ↔ b) ↔ a ∨ b := by tauto

/-! Non-vacuity: any two boxes of whole sides, side by side and with the same height of at most 12 mm, in one file. -/

private noncomputable def exFlags : GoosliFlags B64 :=
  ⟨"in.stl", "out.gcode", (⟨0, 0, 0⟩ : R3).f64v, (⟨0, 0, 0⟩ : R3).f64, B64.of 10, B64.of (1 / 4), B64.of 1, 20, 1, 1, 60, 200, 50, 30, 40, false,
    B64.of (1 / 2), "Squares", false, 20, B64.of 5, "planes.txt", "3axes", B64.of 30, zUp.f64v, false, B64.of 1, B64.of 2, B64.of 1, 3⟩

example (M : Machine B64) (fuel : ℕ) (now : String) (p q p' q' : R3) (c : ℕ) (c0 : 1 ≤ c) (c1 : c ≤ 12) (hc : q.z - p.z = c) (H : GoodBox 3 p q) (H' : GoodBox 3 p' q')
    (hx : q.x < p'.x) (h0 : p'.z = p.z) (h1 : q'.z = q.z) :
    ∃ (hd ft : List Char) (text : String) (ds : List (List (List R3) × List (R3 × R3))) (i0 : ℕ),
      runGoosli M fuel (fun _ => some (saveSTL (fmesh (brick p q ++ brick p' q')))) (fun _ => some []) (fun _ => true) now exFlags =
        ⟨[("out.gcode", hd ++ text.toList ++ ft)], .ok ()⟩ ∧ 4 * c ≤ ds.length + 2 ∧
      (∀ (i : ℕ) d, ds[i]? = some d → ∀ x : R3, x.z = p.z + ((i0 + i : ℕ) + 1 / 2) * (1 / 4) → OffOutline p q x → OffOutline p' q' x →
        OffThinCuts x.z (brick p q ++ brick p' q') x → (InsideOdd x d.1 ↔ InRectangle p q x ∨ InRectangle p' q' x)) ∧
      ∀ P : Printer, P.tool = 0 → printedMoves P (parseText text) = layersRun 0 ds := by
  have step : rd (((4 * c : ℕ) : ℝ) * (1 / 4) * rd (1 / ((4 * c : ℕ) : ℝ))) = 1 / 4 := by
    have := even_upto48 (n := 4 * c) (by omega) (by omega) (b := -2) (by norm_num)
    have e : (2 : ℝ) ^ (-2 : ℤ) = 1 / 4 := by norm_num
    rwa [e] at this
  have E : EvenLayers 3 (4 * c) p.z q.z (1 / 4) :=
    ⟨H.pz.mono (by norm_num), ⟨1, by norm_num⟩, by norm_num, by rw [hc]; push_cast; ring, H.pr.2.2, H.qr.2.2, step⟩
  obtain ⟨D, G, X⟩ := C136_boxes H H' hx h0 h1
  have e : [brick p q, brick p' q'].flatten = brick p q ++ brick p' q' := by simp
  have W := watertight_append (box_watertight H.below) (box_watertight H'.below) D.verts
  have isF : ∀ w ∈ allVerts (brick p q ++ brick p' q'), w.isF := fun w hw => by
    obtain ⟨gx, gy, gz⟩ := G.grid w hw
    obtain ⟨rx, ry, rz⟩ := G.range w hw
    exact ⟨grid_isF (by norm_num) gx rx, grid_isF (by norm_num) gy ry, grid_isF (by norm_num) gz rz⟩
  have hoff : ∀ w ∈ allVerts [brick p q, brick p' q'].flatten, ∀ m < 4 * c, w.z ≠ p.z + (2 * m + 1 : ℕ) * (1 / 4 / 2) := by
    intro w hw m hm
    rw [e] at hw
    have hz : w.z = p.z ∨ w.z = q.z := by
      rcases (by simpa [allVerts] using hw : w ∈ allVerts (brick p q) ∨ w ∈ allVerts (brick p' q')) with h | h
      · exact (box_vert h).2.2
      · rw [← h0, ← h1]; exact (box_vert h).2.2
    have m0 : (0 : ℝ) < (2 * m + 1 : ℕ) := by positivity
    rcases hz with e | e <;> rw [e] <;> intro h
    · linarith
    · have : ((2 * m + 1 : ℕ) : ℝ) = ((8 * c : ℕ) : ℝ) := by push_cast at h ⊢; linarith
      have : 2 * m + 1 = 8 * c := by exact_mod_cast this
      omega
  have hb : ∀ b ∈ [brick p q, brick p' q'], Watertight b := by
    intro b hb
    rcases List.mem_pair.1 hb with rfl | rfl
    · exact box_watertight H.below
    · exact box_watertight H'.below
  have hlen : (brick p q ++ brick p' q').length < 2 ^ 32 := by simp [brick, boxFaces]
  have hl := whole_loads G hlen
  have hmv : (brick p q ++ brick p' q').map (RTri.movedF ⟨0, 0, 0⟩) = [brick p q, brick p' q'].flatten := by rw [e]; exact movedF_zero isF
  rw [← e] at W G X
  obtain ⟨hd, ft, text, ds, i0, g1, g2, g3, g4, g5, -, g7⟩ := C139_program M fuel (fun _ => some (saveSTL (fmesh (brick p q ++ brick p' q')))) (fun _ => some [])
    (fun _ => true) now exFlags (brick p q ++ brick p' q') [brick p q, brick p' q'] ⟨0, 0, 0⟩ p.z q.z (1 / 4) (1 / 2) 0 3 (4 * c) hl isF rfl
    ⟨isF_zero, isF_zero, isF_zero⟩ rfl rfl rfl rfl hmv hb W G X E (by omega) hoff rfl rfl rfl isF_half (by norm_num) (by norm_num) (by decide) (by decide)
  refine ⟨hd, ft, text, ds, i0, g1, by omega, fun i d hi x hxz off off' thin => ?_, g7⟩
  have hm : i0 + i < 4 * c := by
    have := (List.getElem?_eq_some_iff.1 hi).1
    omega
  obtain ⟨e', Gx, -⟩ := E.level (by norm_num) _ hm
  have lev : x.z = p.z + (2 * (i0 + i) + 1 : ℕ) * (1 / 4 / 2) := by rw [hxz]; push_cast; ring
  rw [e', ← lev] at Gx
  have l0 : p.z < x.z := by
    rw [hxz]
    have : (0 : ℝ) ≤ ((i0 + i : ℕ) : ℝ) := by positivity
    linarith
  have l1 : x.z < q.z := by
    have : (((i0 + i : ℕ) : ℝ) + 1) ≤ ((4 * c : ℕ) : ℝ) := by exact_mod_cast hm
    push_cast at this hxz ⊢
    rw [hxz]; linarith
  have far : FarFromSurface (1 / 10 ^ 8) (lvl x.z) zUp [brick p q, brick p' q'].flatten x := by
    rw [e]
    intro t ht
    rcases List.mem_append.1 ht with h | h
    · exact far_of_off H.below l0 l1 off t h
    · exact far_of_off H'.below (by rw [h0]; exact l0) (by rw [h1]; exact l1) off' t h
  have m1 : InMaterial ⟨0, 0, x.z⟩ ⟨0, 0, 1⟩ (brick p q) x ↔ _ := box_material H Gx l0 l1 rfl off
  have m2 : InMaterial ⟨0, 0, x.z⟩ ⟨0, 0, 1⟩ (brick p' q') x ↔ _ := box_material H' Gx (by rw [h0]; exact l0) (by rw [h1]; exact l1) rfl off'
  rw [(g5 i d hi x hxz far (by rw [e]; exact thin)).2, oddBodies_pair, m1, m2]
  have no : ¬ (InRectangle p q x ∧ InRectangle p' q' x) := fun ⟨⟨_, a, _, _⟩, ⟨b, _, _, _⟩⟩ => by linarith
  exact xor_disjoint no

end Goosli
