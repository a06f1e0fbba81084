import Verif.Props.C132
import Verif.Props.C104
/-!
# C133: two files of the same model
-/
set_option autoImplicit false
namespace Goosli
open Flt R3 Spec

/-- the contours `ds` of levels `k, k + 1, …` (with their fill lines) enclose the point `x` at level `m` -/
def EnclosedAt (ds : List (List (List R3) × List (R3 × R3))) (k m : ℕ) (x : R3) : Prop := ∃ i d, ds[i]? = some d ∧ m = k + i ∧ InsideOdd x d.1

theorem same_moved {ts' ts : List RTri} (h : SameFacets ts' ts) (o : R3) : SameFacets (ts'.map (RTri.movedF o)) (ts.map (RTri.movedF o)) := by
  obtain ⟨m, hp, hf⟩ := h
  refine ⟨m.map (RTri.movedF o), hp.map _, ?_⟩
  rw [List.forall₂_map_left_iff, List.forall₂_map_right_iff]
  refine hf.imp fun r t hs => ?_
  rcases hs with rfl | rfl | rfl | rfl | rfl | rfl <;> simp [RTri.SameAs, RTri.movedF]

theorem enclosed_material {lo hi t : ℝ} {ts : List RTri} {ds : List (List (List R3) × List (R3 × R3))} {k n : ℕ}
    (h1 : ∀ i d, ds[i]? = some d → BoundMaterialF (floatLevel lo hi t (k + i)) ts d.1)
    (h2 : ∀ m < n, m < k ∨ k + ds.length ≤ m → NoMaterialF (floatLevel lo hi t m) ts) {m : ℕ} (hm : m < n) {x : R3} (hx : x.z = floatLevel lo hi t m)
    (far : FarFromSurface (1 / 10 ^ 8) (lvl (floatLevel lo hi t m)) zUp ts x) (thin : OffThinCuts (floatLevel lo hi t m) ts x) :
    EnclosedAt ds k m x ↔ InMaterial (lvl (floatLevel lo hi t m)) zUp ts x := by
  constructor
  · rintro ⟨i, d, hd, rfl, hin⟩
    exact ((h1 i d hd).2 x hx far thin).2.1 hin
  · intro h
    by_cases hc : m < k ∨ k + ds.length ≤ m
    · exact absurd h (h2 m hm hc x hx far thin)
    · push Not at hc
      obtain ⟨i, rfl⟩ := Nat.exists_eq_add_of_le hc.1
      have hi' : i < ds.length := by omega
      have hd := List.getElem?_eq_getElem hi'
      exact ⟨i, _, hd, rfl, ((h1 i _ hd).2 x hx far thin).2.2 h⟩

/-- **C133.** Two runs of the program in `float64` (slicing type "3axes", supports off) with the same flags, except for the names of the files, on files that load as the
same facets, in any order and with the vertices of each in any order, both consistently oriented. Both end normally and write one file; the nozzle
runs along contours and fill lines `ds` and `ds'`, and at every level the two sets of contours enclose the same points, those of the material of the model. -/
theorem C133_program (M M' : Machine B64) (fuel : ℕ) (read : String → Option Bytes) (templates : String → Option (List Char))
    (canWrite : String → Bool) (now : String) (fl fl' : GoosliFlags B64) (ts0 ts0' : List RTri) (o : R3) (lo hi t lw : ℝ)
    (hfl : fl' = { fl with stl := fl'.stl, out := fl'.out }) (hsame : SameFacets ts0' ts0)
    (hread : Loads (read fl.stl) (fmesh ts0)) (hread' : Loads (read fl'.stl) (fmesh ts0'))
    (hF : ∀ w ∈ allVerts ts0, w.isF) (hty : fl.slicingType = "3axes") (ho : o.isF)
    (horg : fl.origin = o.f64v) (hout : canWrite fl.out = true) (hout' : canWrite fl'.out = true) (htop : (templates "data/header_template.txt").isSome)
    (hbot : (templates "data/footer_template.txt").isSome)
    (hw : Watertight (ts0.map (RTri.movedF o))) (hw' : Watertight (ts0'.map (RTri.movedF o))) (hdeg : ∀ t ∈ ts0.map (RTri.movedF o), t.nrm ≠ 0)
    (he : Extent (ts0.map (RTri.movedF o)) zUp lo hi) (hh : 1 / 10 ^ 6 ≤ hi - lo) (tF : IsF t) (t0 : 1 / 1000 ≤ t) (t1 : t ≤ 1000)
    (ht : fl.layerHeight = B64.of t) (hs : fl.supportsOn = false) (hR : ∀ w ∈ allVerts (ts0.map (RTri.movedF o)), w.inRange)
    (hsafe : ∀ m : ℕ, (m : ℤ) < floatCount lo hi t → FloatSafe (floatLevel lo hi t m) (ts0.map (RTri.movedF o)))
    (h2 : 2 ≤ floatCount lo hi t)
    (hlw : fl.lineWidth = B64.of lw) (Flw : IsF lw) (l0 : 1 / 50 ≤ lw) (l1 : lw ≤ 10)
    (hd0 : 1 ≤ densityShare fl.fillingType fl.fillDensity) (hd1 : densityShare fl.fillingType fl.fillDensity ≤ 100) :
    ∃ (hd ft hd' ft' : List Char) (text text' : String) (ds ds' : List (List (List R3) × List (R3 × R3))) (k k' : ℕ),
      runGoosli M fuel read templates canWrite now fl = ⟨[(fl.out, hd ++ text.toList ++ ft)], .ok ()⟩ ∧
      runGoosli M' fuel read templates canWrite now fl' = ⟨[(fl'.out, hd' ++ text'.toList ++ ft')], .ok ()⟩ ∧
      (∀ p : Printer, p.tool = 0 → printedMoves p (parseText text) = layersRun 0 ds) ∧
      (∀ p : Printer, p.tool = 0 → printedMoves p (parseText text') = layersRun 0 ds') ∧
      ∀ m : ℕ, (m : ℤ) < floatCount lo hi t → ∀ x : R3, x.z = floatLevel lo hi t m →
        FarFromSurface (1 / 10 ^ 8) (lvl (floatLevel lo hi t m)) zUp (ts0.map (RTri.movedF o)) x → OffThinCuts (floatLevel lo hi t m) (ts0.map (RTri.movedF o)) x →
        (EnclosedAt ds k m x ↔ EnclosedAt ds' k' m x) ∧
        (EnclosedAt ds k m x ↔ InMaterial (lvl (floatLevel lo hi t m)) zUp (ts0.map (RTri.movedF o)) x) := by
  have hs' := same_moved hsame o
  have vs0 := same_verts hsame
  have vs := same_verts hs'
  have hdeg' : ∀ t ∈ ts0'.map (RTri.movedF o), t.nrm ≠ 0 := fun r hr => by
    obtain ⟨t, ht, h⟩ := hs'.left hr
    exact sameAs_nrm h (hdeg t ht)
  obtain ⟨hd, ft, text, sp, fu, ds, k, n, a1, -, -, a2, -, -, -, a3, a4, a5⟩ := C104_program M fuel read templates canWrite now fl ts0 o lo hi t lw hread hF hty ho horg
    hout htop hbot hw hdeg he hh tF t0 t1 ht hs hR hsafe h2 hlw Flw l0 l1 hd0 hd1
  obtain ⟨hd', ft', text', sp', fu', ds', k', n', b1, -, -, b2, -, -, -, b3, b4, b5⟩ := C104_program M' fuel read templates canWrite now fl' ts0' o lo hi t lw hread'
    (fun w h => hF w ((vs0 w).1 h)) (by rw [hfl]; exact hty) ho (by rw [hfl]; exact horg)
    hout' htop hbot hw' hdeg' (same_extent hs' he) hh tF t0 t1 (by rw [hfl]; exact ht) (by rw [hfl]; exact hs) (fun w h => hR w ((vs w).1 h))
    (fun m hm => same_safe hs' hw hw' (hsafe m hm)) h2 (by rw [hfl]; exact hlw) Flw l0 l1 (by rw [hfl]; exact hd0) (by rw [hfl]; exact hd1)
  refine ⟨hd, ft, hd', ft', text, text', ds, ds', k, k', a1, b1, a5, b5, fun m hm x hx far thin => ?_⟩
  rw [enclosed_material (fun i d h => (a3 i d h).1) a4 (by omega) hx far thin,
    enclosed_material (fun i d h => (b3 i d h).1) b4 (by omega) hx (same_far hs' _ _ _ _ far) (same_thin hs' hw hw' thin), same_material hs' hw hw']
  exact ⟨Iff.rfl, Iff.rfl⟩

/-! ## Non-vacuity -/

theorem outTetra_loads : Loads (some (saveSTL (fmesh outTetra))) (fmesh outTetra) := by
  have vs := same_verts outTetra_same
  have h := (C97_save outTetra (by simp [outTetra]) (fun w h => exTetra_safe.isF w ((vs w).1 h)) (fun w hw => by
    have h := exTetra_safe.range w ((vs w).1 hw)
    have h3 : (1000 : ℝ) ≤ 2 ^ 127 := by norm_num
    exact ⟨h.1.trans h3, h.2.1.trans h3, h.2.2.trans h3⟩)).1
  have e : outTetra.map RTri.round32 = outTetra := by
    have r0 : rd32 0 = 0 := rd32_of_rep (by simpa using rep32_int (n := 0) (by norm_num))
    have r4 : rd32 4 = 4 := rd32_of_rep (by simpa using rep32_int (n := 4) (by norm_num))
    simp [outTetra, RTri.round32, R3.round32, r0, r4]
  rw [e] at h
  exact ⟨_, rfl, h⟩

/-- flags for a vertical slice in layers of one millimetre -/
private noncomputable def exFlags (input output : String) : GoosliFlags B64 :=
  ⟨input, output, (⟨0, 0, 0⟩ : R3).f64v, (⟨0, 0, 0⟩ : R3).f64, B64.of 10, B64.of 1, B64.of 1, 20, 1, 1, 60, 200, 50, 30, 40, false,
    B64.of (1 / 2), "Squares", false, 20, B64.of 5, "planes.txt", "3axes", B64.of 30, zUp.f64v, false, B64.of 1, B64.of 2, B64.of 1, 3⟩

/-- the runs on the file of the tetrahedron and on the file of the tetrahedron inside out: they end normally, and their contours enclose the same points -/
example (M M' : Machine B64) (fuel : ℕ) (now : String) : ∃ (hd ft hd' ft' : List Char) (text text' : String)
    (ds ds' : List (List (List R3) × List (R3 × R3))) (k k' : ℕ),
    runGoosli M fuel (fun f => some (saveSTL (fmesh (if f = "in.stl" then exTetra else outTetra)))) (fun _ => some []) (fun _ => true) now (exFlags "in.stl" "a") =
      ⟨[("a", hd ++ text.toList ++ ft)], .ok ()⟩ ∧
    runGoosli M' fuel (fun f => some (saveSTL (fmesh (if f = "in.stl" then exTetra else outTetra)))) (fun _ => some []) (fun _ => true) now (exFlags "out.stl" "b") =
      ⟨[("b", hd' ++ text'.toList ++ ft')], .ok ()⟩ ∧
    (∀ p : Printer, p.tool = 0 → printedMoves p (parseText text) = layersRun 0 ds) ∧
    (∀ p : Printer, p.tool = 0 → printedMoves p (parseText text') = layersRun 0 ds') ∧
    ∀ m : ℕ, m < 4 → ∀ x : R3, x.z = floatLevel 0 4 1 m → FarFromSurface (1 / 10 ^ 8) (lvl (floatLevel 0 4 1 m)) zUp exTetra x →
      OffThinCuts (floatLevel 0 4 1 m) exTetra x → (EnclosedAt ds k m x ↔ EnclosedAt ds' k' m x) := by
  have vs := same_verts outTetra_same
  have em := movedF_zero (ts := exTetra) exTetra_safe.isF
  have em' := movedF_zero (ts := outTetra) (fun w h => exTetra_safe.isF w ((vs w).1 h))
  obtain ⟨hd, ft, hd', ft', text, text', ds, ds', k, k', h1, h2, h3, h4, h5⟩ :=
    C133_program M M' fuel (fun f => some (saveSTL (fmesh (if f = "in.stl" then exTetra else outTetra)))) (fun _ => some []) (fun _ => true) now
      (exFlags "in.stl" "a") (exFlags "out.stl" "b") exTetra outTetra ⟨0, 0, 0⟩ 0 4 1 (1 / 2) rfl outTetra_same
      (by simpa [exFlags] using exTetra_loads) (by simpa [exFlags] using outTetra_loads)
      exTetra_safe.isF rfl ⟨isF_zero, isF_zero, isF_zero⟩ rfl rfl rfl rfl rfl (by rw [em]; exact exTetra_ok.1) (by rw [em']; exact outTetra_watertight)
      (by rw [em]; exact exTetra_ok.2.1) (by rw [em]; exact exTetra_extentF) (by norm_num) isF_one (by norm_num) (by norm_num) rfl rfl
      (by rw [em]; exact exTetra_safe.range) (by rw [em]; exact exFloat_safe) (by rw [exFloat_count]; norm_num) rfl isF_half (by norm_num)
      (by norm_num) (by decide) (by decide)
  rw [em, exFloat_count] at h5
  exact ⟨hd, ft, hd', ft', text, text', ds, ds', k, k', h1, h2, h3, h4, fun m hm x hx far thin => (h5 m (by exact_mod_cast hm) x hx far thin).1⟩

end Goosli
