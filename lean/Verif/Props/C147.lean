import Verif.Props.C146
import Verif.Props.C133
import Verif.Props.C137
/-!
# C147: an edit of the model, from the file to the moves

The program in `float64` on the files of two models that differ above or below a level, or beyond a vertical plane.
-/
set_option autoImplicit false
namespace Goosli
open Flt R3 Spec

/-- a run on a model on a grid (C109): the contours along which the nozzle is moved enclose the material at every level -/
theorem grid_enclosed (M : Machine B64) (fuel : ℕ) (read : String → Option Bytes) (templates : String → Option (List Char))
    (canWrite : String → Bool) (now : String) (fl : GoosliFlags B64) (ts0 ts : List RTri) (o : R3) (lo hi t lw : ℝ) (j k n : ℕ)
    (hread : Loads (read fl.stl) (fmesh ts0)) (hF : ∀ w ∈ allVerts ts0, w.isF) (hty : fl.slicingType = "3axes") (ho : o.isF)
    (horg : fl.origin = o.f64v) (hout : canWrite fl.out = true) (htop : (templates "data/header_template.txt").isSome)
    (hbot : (templates "data/footer_template.txt").isSome) (hts : ts0.map (RTri.movedF o) = ts)
    (hw : Watertight ts) (G : GridModel j k ts) (he : Extent ts zUp lo hi) (E : EvenLayers k n lo hi t) (hn : 2 ≤ n)
    (hoff : ∀ w ∈ allVerts ts, ∀ m < n, w.z ≠ lo + (2 * m + 1 : ℕ) * (t / 2))
    (ht : fl.layerHeight = B64.of t) (hs : fl.supportsOn = false)
    (hlw : fl.lineWidth = B64.of lw) (Flw : IsF lw) (l0 : 1 / 50 ≤ lw) (l1 : lw ≤ 10)
    (hd0 : 1 ≤ densityShare fl.fillingType fl.fillDensity) (hd1 : densityShare fl.fillingType fl.fillDensity ≤ 100) :
    ∃ (hd ft : List Char) (text : String) (ds : List (List (List R3) × List (R3 × R3))) (i0 : ℕ),
      runGoosli M fuel read templates canWrite now fl = ⟨[(fl.out, hd ++ text.toList ++ ft)], .ok ()⟩ ∧
      (∀ p : Printer, p.tool = 0 → printedMoves p (parseText text) = layersRun 0 ds) ∧
      ∀ m < n, ∀ x : R3, x.z = lo + ((m : ℝ) + 1 / 2) * t → FarFromSurface (1 / 10 ^ 8) (lvl x.z) zUp ts x → OffThinCuts x.z ts x →
        (EnclosedAt ds i0 m x ↔ InMaterial (lvl x.z) zUp ts x) := by
  obtain ⟨hd, ft, text, sparse, full, ds, i0, h1, -, -, -, -, -, h7, h8, h9⟩ :=
    C109_program M fuel read templates canWrite now fl ts0 ts o lo hi t lw j k n hread hF hty ho horg hout htop hbot hts hw G he E hn hoff ht hs hlw Flw l0 l1 hd0 hd1
  refine ⟨hd, ft, text, ds, i0, h1, h9, fun m hm x hx far thin => ?_⟩
  constructor
  · rintro ⟨i, d, hd, rfl, hin⟩
    have := (h7 i d hd).1
    rw [← hx] at this
    exact (this.2 x rfl far thin).2.1 hin
  · intro h
    by_cases hc : m < i0 ∨ i0 + ds.length ≤ m
    · have := h8 m hm hc
      rw [← hx] at this
      exact absurd h (this x rfl far thin)
    · push Not at hc
      obtain ⟨i, rfl⟩ := Nat.exists_eq_add_of_le hc.1
      have hi' : i < ds.length := by omega
      have hd := List.getElem?_eq_getElem hi'
      have := (h7 i _ hd).1
      rw [← hx] at this
      exact ⟨i, _, hd, rfl, (this.2 x rfl far thin).2.2 h⟩

/-- **C147.** Two runs of the program in `float64` (slicing type "3axes", supports off) with the same layer height, on files of models that, moved by the origins, are on a grid, have
the same lowest point and are cut into `n` and `n'` even layers, no vertex being in the middle of a layer. Both end normally and write one file, in which the nozzle is moved along
contours and fill lines `ds` and `ds'`. At a level of both that is reached by the same facets, the contours enclose the same points; and if the models differ only beyond a
vertical plane, then at every level of both the contours enclose the same points on the near side of it. -/
theorem C147_program (M M' : Machine B64) (fuel fuel' : ℕ) (read : String → Option Bytes) (templates : String → Option (List Char))
    (canWrite : String → Bool) (now now' : String) (fl fl' : GoosliFlags B64) (ts0 ts0' ts ts' : List RTri) (o o' : R3) (lo hi hi' t lw lw' : ℝ) (j k n n' : ℕ)
    (hread : Loads (read fl.stl) (fmesh ts0)) (hread' : Loads (read fl'.stl) (fmesh ts0')) (hF : ∀ w ∈ allVerts ts0, w.isF) (hF' : ∀ w ∈ allVerts ts0', w.isF)
    (hty : fl.slicingType = "3axes") (hty' : fl'.slicingType = "3axes") (ho : o.isF) (ho' : o'.isF) (horg : fl.origin = o.f64v) (horg' : fl'.origin = o'.f64v)
    (hout : canWrite fl.out = true) (hout' : canWrite fl'.out = true) (htop : (templates "data/header_template.txt").isSome)
    (hbot : (templates "data/footer_template.txt").isSome) (hts : ts0.map (RTri.movedF o) = ts) (hts' : ts0'.map (RTri.movedF o') = ts')
    (hw : Watertight ts) (hw' : Watertight ts') (G : GridModel j k ts) (G' : GridModel j k ts') (he : Extent ts zUp lo hi) (he' : Extent ts' zUp lo hi')
    (E : EvenLayers k n lo hi t) (E' : EvenLayers k n' lo hi' t) (hn : 2 ≤ n) (hn' : 2 ≤ n')
    (hoff : ∀ w ∈ allVerts ts, ∀ m < n, w.z ≠ lo + (2 * m + 1 : ℕ) * (t / 2)) (hoff' : ∀ w ∈ allVerts ts', ∀ m < n', w.z ≠ lo + (2 * m + 1 : ℕ) * (t / 2))
    (ht : fl.layerHeight = B64.of t) (ht' : fl'.layerHeight = B64.of t) (hs : fl.supportsOn = false) (hs' : fl'.supportsOn = false)
    (hlw : fl.lineWidth = B64.of lw) (Flw : IsF lw) (l0 : 1 / 50 ≤ lw) (l1 : lw ≤ 10)
    (hlw' : fl'.lineWidth = B64.of lw') (Flw' : IsF lw') (l0' : 1 / 50 ≤ lw') (l1' : lw' ≤ 10)
    (hd0 : 1 ≤ densityShare fl.fillingType fl.fillDensity) (hd1 : densityShare fl.fillingType fl.fillDensity ≤ 100)
    (hd0' : 1 ≤ densityShare fl'.fillingType fl'.fillDensity) (hd1' : densityShare fl'.fillingType fl'.fillDensity ≤ 100) :
    ∃ (hd ft hd' ft' : List Char) (text text' : String) (ds ds' : List (List (List R3) × List (R3 × R3))) (i0 i0' : ℕ),
      runGoosli M fuel read templates canWrite now fl = ⟨[(fl.out, hd ++ text.toList ++ ft)], .ok ()⟩ ∧
      runGoosli M' fuel' read templates canWrite now' fl' = ⟨[(fl'.out, hd' ++ text'.toList ++ ft')], .ok ()⟩ ∧
      (∀ p : Printer, p.tool = 0 → printedMoves p (parseText text) = layersRun 0 ds) ∧
      (∀ p : Printer, p.tool = 0 → printedMoves p (parseText text') = layersRun 0 ds') ∧
      (∀ m < n, m < n' → ∀ x : R3, x.z = lo + ((m : ℝ) + 1 / 2) * t → SameAt x.z ts ts' → FarFromSurface (1 / 10 ^ 8) (lvl x.z) zUp ts x → OffThinCuts x.z ts x →
        (EnclosedAt ds' i0' m x ↔ EnclosedAt ds i0 m x)) ∧
      ∀ (us vs vs' : List RTri) (g : R3) (c : ℝ), ts = us ++ vs → ts' = us ++ vs' → BeyondPlane g c vs → BeyondPlane g c vs' →
        ∀ m < n, m < n' → ∀ x : R3, x.z = lo + ((m : ℝ) + 1 / 2) * t → x.dot g < c → FarFromSurface (1 / 10 ^ 8) (lvl x.z) zUp ts x → OffThinCuts x.z ts x →
          FarFromSurface (1 / 10 ^ 8) (lvl x.z) zUp ts' x → OffThinCuts x.z ts' x → (EnclosedAt ds' i0' m x ↔ EnclosedAt ds i0 m x) := by
  obtain ⟨hd, ft, text, ds, i0, a1, a2, a3⟩ :=
    grid_enclosed M fuel read templates canWrite now fl ts0 ts o lo hi t lw j k n hread hF hty ho horg hout htop hbot hts hw G he E hn hoff ht hs hlw Flw l0 l1 hd0 hd1
  obtain ⟨hd', ft', text', ds', i0', b1, b2, b3⟩ := grid_enclosed M' fuel' read templates canWrite now' fl' ts0' ts' o' lo hi' t lw' j k n' hread' hF' hty' ho' horg' hout' htop hbot
    hts' hw' G' he' E' hn' hoff' ht' hs' hlw' Flw' l0' l1' hd0' hd1'
  refine ⟨hd, ft, hd', ft', text, text', ds, ds', i0, i0', a1, b1, a2, b2, fun m hm hm' x hx same far thin => ?_,
    fun us vs vs' g c e e' B B' m hm hm' x hx near far thin far' thin' => ?_⟩
  · rw [a3 m hm x hx far thin, b3 m hm' x hx (same.far far) (same.thin thin)]
    exact ⟨same.symm.material rfl, same.material rfl⟩
  · rw [a3 m hm x hx far thin, b3 m hm' x hx far' thin']
    obtain ⟨c1, L⟩ := C109_levels G E hoff
    obtain ⟨c2, L'⟩ := C109_levels G' E' hoff'
    obtain ⟨e1, H⟩ := L m (by rw [c1]; exact_mod_cast hm)
    obtain ⟨e2, H'⟩ := L' m (by rw [c2]; exact_mod_cast hm')
    rw [e1, ← hx] at H
    rw [e2, ← hx] at H'
    have good : ∀ {us : List RTri}, FloatSafe x.z us → GoodLevel us x.z := fun K => ⟨fun w h hc => K.offPlane w h (by rw [height_lvl]; linarith), K.wellSep⟩
    have on : ∀ t ∈ ts, ¬ OnTri t x := far_notOn rfl far
    have hg := good H
    have hg' := good H'
    have sm := H.small
    have sm' := H'.small
    have so := G.solid
    have so' := G'.solid
    rw [e] at hw so sm hg on ⊢
    rw [e'] at hw' so' sm' hg' ⊢
    exact (material_local B B' hw hw' so so' sm sm' hg hg' rfl near fun t ht => on t (List.mem_append_left _ ht)).symm

/-! Non-vacuity: a box with a height of 3 mm, and the same with any second box beside it and higher up, to 6 mm, in layers of 3/4 mm. The layers below the second box are the same. -/

private noncomputable def exFlags (input output : String) : GoosliFlags B64 :=
  ⟨input, output, (⟨0, 0, 0⟩ : R3).f64v, (⟨0, 0, 0⟩ : R3).f64, B64.of 10, B64.of (3 / 4), B64.of 1, 20, 1, 1, 60, 200, 50, 30, 40, false,
    B64.of (1 / 2), "Squares", false, 20, B64.of 5, "planes.txt", "3axes", B64.of 30, zUp.f64v, false, B64.of 1, B64.of 2, B64.of 1, 3⟩

example (M M' : Machine B64) (fuel : ℕ) (now : String) {p q p' q' : R3} (H : GoodBox 3 p q) (H' : GoodBox 3 p' q') (hx : q.x < p'.x) (hz : q.z - p.z = 3) (hz' : q'.z - p.z = 6)
    (hb : q.z ≤ p'.z) : ∃ (hd ft hd' ft' : List Char) (text text' : String) (ds ds' : List (List (List R3) × List (R3 × R3))) (i0 i0' : ℕ),
      runGoosli M fuel (fun f => some (saveSTL (fmesh (if f = "in.stl" then brick p q else brick p q ++ brick p' q')))) (fun _ => some []) (fun _ => true) now (exFlags "in.stl" "a") =
        ⟨[("a", hd ++ text.toList ++ ft)], .ok ()⟩ ∧
      runGoosli M' fuel (fun f => some (saveSTL (fmesh (if f = "in.stl" then brick p q else brick p q ++ brick p' q')))) (fun _ => some []) (fun _ => true) now (exFlags "two.stl" "b") =
        ⟨[("b", hd' ++ text'.toList ++ ft')], .ok ()⟩ ∧
      ∀ m : ℕ, m < 4 → ∀ x : R3, x.z = p.z + ((m : ℝ) + 1 / 2) * (3 / 4) → FarFromSurface (1 / 10 ^ 8) (lvl x.z) zUp (brick p q) x → OffThinCuts x.z (brick p q) x →
        (EnclosedAt ds' i0' m x ↔ EnclosedAt ds i0 m x) := by
  obtain ⟨D, G, X, X', E, E', same⟩ := higher_box H H' hx hz hz' hb
  have W := watertight_append (box_watertight H.below) (box_watertight H'.below) D.verts
  have isF : ∀ {ts : List RTri}, GridModel 0 3 ts → ∀ w ∈ allVerts ts, w.isF := fun G w hw => by
    obtain ⟨gx, gy, gz⟩ := G.grid w hw
    obtain ⟨rx, ry, rz⟩ := G.range w hw
    exact ⟨grid_isF (by norm_num) gx rx, grid_isF (by norm_num) gy ry, grid_isF (by norm_num) gz rz⟩
  have G0 : GridModel 0 3 (brick p q) := box_grid H
  have odd : ∀ (z : ℝ) (m i : ℕ), z = p.z + i → z ≠ p.z + (2 * m + 1 : ℕ) * (3 / 4 / 2) := by
    intro z m i e h
    rw [e] at h
    have : ((8 * i : ℕ) : ℝ) = ((3 * (2 * m + 1) : ℕ) : ℝ) := by push_cast at h ⊢; linarith
    have : 8 * i = 3 * (2 * m + 1) := by exact_mod_cast this
    omega
  have whole : ∃ i : ℕ, p'.z = p.z + i := by
    obtain ⟨a, ha⟩ := H.pz
    obtain ⟨b, hb'⟩ := H'.pz
    simp only [pow_zero, div_one] at ha hb'
    have : ((a : ℤ) : ℝ) ≤ b := by rw [← ha, ← hb']; linarith
    obtain ⟨i, hi⟩ := Int.eq_ofNat_of_zero_le (sub_nonneg.2 (Int.cast_le.1 this))
    refine ⟨i, ?_⟩
    have : ((b - a : ℤ) : ℝ) = (i : ℤ) := by rw [hi]
    push_cast at this
    rw [ha, hb']; linarith
  obtain ⟨i, hi⟩ := whole
  have off1 : ∀ w ∈ allVerts (brick p q), ∀ m, w.z ≠ p.z + (2 * m + 1 : ℕ) * (3 / 4 / 2) := by
    intro w hw m
    rcases (box_vert hw).2.2 with e | e
    · exact odd _ m 0 (by rw [e]; simp)
    · exact odd _ m 3 (by rw [e]; push_cast; linarith)
  have off2 : ∀ w ∈ allVerts (brick p' q'), ∀ m, w.z ≠ p.z + (2 * m + 1 : ℕ) * (3 / 4 / 2) := by
    intro w hw m
    rcases (box_vert hw).2.2 with e | e
    · exact odd _ m i (by rw [e, hi])
    · exact odd _ m 6 (by rw [e]; push_cast; linarith)
  have load : Loads (some (saveSTL (fmesh (if "in.stl" = "in.stl" then brick p q else brick p q ++ brick p' q')))) (fmesh (brick p q)) := by
    rw [if_pos rfl]; exact whole_loads G0 (by simp [brick, boxFaces])
  have load' : Loads (some (saveSTL (fmesh (if "two.stl" = "in.stl" then brick p q else brick p q ++ brick p' q')))) (fmesh (brick p q ++ brick p' q')) := by
    rw [if_neg (by decide)]; exact whole_loads G (by simp [brick, boxFaces])
  obtain ⟨hd, ft, hd', ft', text, text', ds, ds', i0, i0', a, b, -, -, c, -⟩ := C147_program M M' fuel fuel
    (fun f => some (saveSTL (fmesh (if f = "in.stl" then brick p q else brick p q ++ brick p' q')))) (fun _ => some []) (fun _ => true) now now (exFlags "in.stl" "a")
    (exFlags "two.stl" "b") (brick p q) (brick p q ++ brick p' q') (brick p q) (brick p q ++ brick p' q') ⟨0, 0, 0⟩ ⟨0, 0, 0⟩ p.z q.z q'.z (3 / 4) (1 / 2) (1 / 2) 0 3 4 8
    load load' (isF G0) (isF G) rfl rfl ⟨isF_zero, isF_zero, isF_zero⟩ ⟨isF_zero, isF_zero, isF_zero⟩
    rfl rfl rfl rfl rfl rfl (movedF_zero (isF G0)) (movedF_zero (isF G)) (box_watertight H.below) W G0 G X X' E E' (by norm_num) (by norm_num) (fun w hw m _ => off1 w hw m)
    (fun w hw m _ => by
      rcases (by simpa [allVerts] using hw : w ∈ allVerts (brick p q) ∨ w ∈ allVerts (brick p' q')) with h | h
      · exact off1 w h m
      · exact off2 w h m) rfl rfl rfl rfl rfl isF_half (by norm_num) (by norm_num) rfl isF_half (by norm_num) (by norm_num) (by decide) (by decide) (by decide) (by decide)
  refine ⟨hd, ft, hd', ft', text, text', ds, ds', i0, i0', a, b, fun m hm x hx far thin => c m hm (by omega) x hx (same _ ?_) far thin⟩
  have : (m : ℝ) + 1 ≤ 4 := by exact_mod_cast hm
  rw [hx]; linarith

end Goosli
