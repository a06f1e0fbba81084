import Verif.Proofs.Cut
/-!
# C22: caps are mirrored and face outwards
-/
set_option linter.unusedSectionVars false
namespace Goosli
open Flt

/-- **C22.** For every mesh (coordinates within the range of the rounding) and plane, `CutMesh` returns; after the pieces
of the triangles, the first half carries one cap triangle for every fan triangle of the assembled contours, oriented so
that its normal points against the plane normal, and the second half the same triangles in the same order with reversed
orientation, hence with normals along the plane normal. -/
theorem C22_caps (S : Sorter) (P N : R3) (ts : List RTri) (hs : ∀ r ∈ ts, r.small) :
    ∃ (contours : List (List R3)) (caps : List RTri),
      joinPaths3AndMinimize S (cutSections P N ts) = .ok (contours.map fun ws => ⟨ws.map R3.pt⟩) ∧
      List.Forall₂ (fun f c => c = f ∨ c = RTri.flip f) (contours.flatMap fan) caps ∧
      cutMesh S (some (rmesh ts)) ⟨P.pt, N.vec⟩ =
        .ok (⟨ts.flatMap (fun r => (cutTriangle ⟨P.pt, N.vec⟩ r.tri).up) ++ caps.map RTri.tri⟩,
          ⟨ts.flatMap (fun r => (cutTriangle ⟨P.pt, N.vec⟩ r.tri).down) ++ caps.map (fun c => c.flip.tri)⟩) ∧
      ∀ c ∈ caps, c.nrm.dot N ≤ 0 ∧ 0 ≤ c.flip.nrm.dot N ∧ c.flip.nrm = -c.nrm := by
  obtain ⟨contours, caps, h1, h2, h3, h4⟩ := cutMesh_shape S P N ts hs
  refine ⟨contours, caps, h1, h3, h2, fun c hc => ⟨(h4 c hc).1, ?_, RTri.flip_nrm c⟩⟩
  have := (h4 c hc).1
  rw [RTri.flip_nrm]
  have e : (-c.nrm).dot N = -(c.nrm.dot N) := by simp [R3.dot]; ring
  rw [e]; linarith

/-- **C22 (nil mesh).** Two empty halves. -/
theorem C22_nil {α : Type} [Flt α] (S : Sorter) (p : Plane α) : cutMesh S none p = .ok (⟨[]⟩, ⟨[]⟩) := rfl

/-- one contour of four points gives two caps; the one that looks along the plane normal is turned over -/
example : ∃ c1 c2 : RTri, capTriangles (Plane.mk (R3.mk 0 0 0).pt (R3.mk 0 0 1).vec)
      ⟨[R3.mk 0 0 0, R3.mk 1 0 0, R3.mk 1 1 0, R3.mk 0 1 0].map R3.pt⟩ = [(c1.tri, c1.flip.tri), (c2.tri, c2.flip.tri)] ∧
    c1.nrm.dot (R3.mk 0 0 1) < 0 ∧ c2.nrm.dot (R3.mk 0 0 1) < 0 := by
  refine ⟨⟨⟨1, 1, 0⟩, ⟨1, 0, 0⟩, ⟨0, 0, 0⟩⟩, ⟨⟨0, 1, 0⟩, ⟨1, 1, 0⟩, ⟨0, 0, 0⟩⟩, ?_, ?_, ?_⟩
  · have h : ∀ a b c : R3, 0 ≤ (RTri.mk a b c).nrm.dot (R3.mk 0 0 1) →
        (newTriangle a.pt b.pt c.pt).n.codirectedWith (R3.mk 0 0 1).vec = true := by
      intro a b c h
      rw [newTriangle_tri]
      show (lit 0 0 ≤? (RTri.mk a b c).nrm.vec.dot _) = true
      rw [dot_vec, lit00, XR.fin_le]; simpa using h
    simp only [capTriangles, List.map_cons, List.map_nil, adjPairs, List.tail_cons, List.zip_cons_cons, List.zip_nil_right]
    rw [if_pos (h _ _ _ (by simp [RTri.nrm, R3.dot, R3.cross])), if_pos (h _ _ _ (by simp [RTri.nrm, R3.dot, R3.cross]))]
    rw [newTriangle_tri, newTriangle_tri, newTriangle_tri, newTriangle_tri]
    rfl
  · simp [RTri.nrm, R3.dot, R3.cross]
  · simp [RTri.nrm, R3.dot, R3.cross]

end Goosli
