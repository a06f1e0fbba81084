import Verif.Props.C70
import Verif.Props.C47
import Verif.Props.C11
import Verif.Proofs.Rot
/-!
# C71: a model without overhangs is printed flat and completely
-/
set_option linter.unusedSectionVars false
set_option autoImplicit false
namespace Goosli
open Flt
variable {α : Type} [Flt α]

/-- no layer is found to overhang the one below it, by the test of the five axes slicers -/
def Straight (layers : List (Layer α)) : Prop := NoOverhang (fun a b => calculateFails a b.paths) layers

theorem firstFail_none : ∀ (qs : List (Layer α × Layer α)) (i : Nat), (∀ q ∈ qs, calculateFails q.1 q.2.paths = .ok none) →
    firstFail i qs = .ok none := by
  intro qs
  induction qs with
  | nil => intro i _; rfl
  | cons q t ih =>
    intro i h
    obtain ⟨a, b⟩ := q
    unfold firstFail
    have h1 : calculateFails a b.paths = .ok none := h (a, b) (by simp)
    rw [h1]
    simp only [go_ok_bind]
    exact ih (i + 1) fun q hq => h q (by simp [hq])

/-- **C71, `SliceDefault2`.** With two layers or more and no overhang the program is one group of layers: all of them, in order, each
with its contours; the bed is never moved. -/
theorem C71_default_partial (S : Sorter) (A : Arrival α) (fuel : Nat) (hf : 0 < fuel) (mesh : Mesh α) (sett : Settings α)
    (layers : List (Layer α)) (hb : Bare layers) (h : Straight layers) (h2 : 2 ≤ layers.length) :
    ∃ out, sliceDefault2 S A fuel mesh sett layers = .ok ⟨sett.gs, [.layersMoving out]⟩ ∧
      prepareLayers S layers sett (calcFillPlanes mesh sett).1 (calcFillPlanes mesh sett).2 = .ok out ∧ out.length = layers.length ∧
      ∀ (i : Nat) (l : Layer α), layers[i]? = some l → ∃ o : Layer α, out[i]? = some o ∧ o.order = l.order ∧ o.paths = l.paths := by
  obtain ⟨out, ho, hlen, hall⟩ := C47_walls S layers sett (calcFillPlanes mesh sett).1 (calcFillPlanes mesh sett).2
    fun l hl q hq => by rw [hb l hl] at hq; cases hq
  refine ⟨out, ?_, ho, hlen, ?_⟩
  · obtain ⟨k, rfl⟩ := Nat.exists_eq_succ_of_ne_zero hf.ne'
    unfold sliceDefault2
    dsimp only
    unfold defaultLoop
    simp only [firstFail_none _ _ h, go_ok_bind, if_pos h2, ho]
    rfl
  · intro i l hl
    obtain ⟨o, h1, h2, _, h3, _⟩ := hall i l hl
    exact ⟨o, h1, h2, h3⟩

/-- **C71, `Slice5Axes`.** If the simplified model has two layers or more and no overhang, the program is one group: the layers of the
model itself. -/
theorem C71_five_partial (S : Sorter) (A : Arrival α) (simplify : List (STri α) → α → List (STri α)) (fuel : Nat) (hf : 0 < fuel)
    (mesh simp : Mesh α) (sett : Settings α) (layers toAdd : List (Layer α)) (hs : simplifyMesh simplify (some mesh) 2500 = some simp)
    (h1 : sliceByVector S A (some simp) axisZ sett = .ok layers) (h2 : sliceByVector S A (some mesh) axisZ sett = .ok toAdd)
    (h : Straight layers) (hl : 2 ≤ layers.length) :
    slice5Axes S A simplify fuel mesh sett = .ok ⟨sett.gs, [.layersMoving toAdd]⟩ := by
  obtain ⟨k, rfl⟩ := Nat.exists_eq_succ_of_ne_zero hf.ne'
  unfold slice5Axes
  simp only [hs, h1, h2, go_ok_bind]
  unfold fiveLoop
  simp only [firstFail_none _ _ h, go_ok_bind, if_pos hl]
  rfl

/-- a single layer has no neighbour that could overhang it -/
theorem adjPairs_short {β : Type} (l : List β) (h : l.length < 2) : adjPairs l = [] := by
  match l, h with
  | [], _ => rfl
  | [_], _ => rfl

/-- **C71, one layer.** `SliceDefault2` prints nothing of a model that has fewer than two layers. -/
theorem C71_default_one_layer (S : Sorter) (A : Arrival α) (fuel : Nat) (hf : 0 < fuel) (mesh : Mesh α) (sett : Settings α)
    (layers : List (Layer α)) (h : layers.length < 2) : sliceDefault2 S A fuel mesh sett layers = .ok ⟨sett.gs, []⟩ := by
  obtain ⟨k, rfl⟩ := Nat.exists_eq_succ_of_ne_zero hf.ne'
  unfold sliceDefault2
  dsimp only
  unfold defaultLoop
  simp only [adjPairs_short layers h, firstFail, pure, Except.pure, go_ok_bind, if_neg (Nat.not_le.2 h)]
  rfl

/-- **C71, one layer.** `Slice5Axes` prints nothing if the simplified model has fewer than two layers. -/
theorem C71_five_one_layer (S : Sorter) (A : Arrival α) (simplify : List (STri α) → α → List (STri α)) (fuel : Nat) (hf : 0 < fuel)
    (mesh simp : Mesh α) (sett : Settings α) (layers toAdd : List (Layer α)) (hs : simplifyMesh simplify (some mesh) 2500 = some simp)
    (h1 : sliceByVector S A (some simp) axisZ sett = .ok layers) (h2 : sliceByVector S A (some mesh) axisZ sett = .ok toAdd)
    (h : layers.length < 2) : slice5Axes S A simplify fuel mesh sett = .ok ⟨sett.gs, []⟩ := by
  obtain ⟨k, rfl⟩ := Nat.exists_eq_succ_of_ne_zero hf.ne'
  unfold slice5Axes
  simp only [hs, h1, h2, go_ok_bind]
  unfold fiveLoop
  simp only [adjPairs_short layers h, firstFail, pure, Except.pure, go_ok_bind, if_neg (Nat.not_le.2 h)]
  rfl

section
variable [FltText α]
/-- **C71, one layer.** Whatever `vip.Slice` returns without planes file for a model with fewer than two layers: it prints nothing. -/
theorem C71_vip_one_layer (S : Sorter) (A : Arrival α) (fuel : Nat) (planes : Option Bytes) (mesh : Mesh α) (sett : Settings α)
    (layers : List (Layer α)) (hp : readPlanes planes = .ok ([] : List (AnalyzedPlane α)))
    (hl : sliceByVector S A (some mesh) axisZ sett = .ok layers) (h : layers.length < 2) (g : Gcode α)
    (hg : vipSlice S A fuel planes mesh sett = .ok g) : g.cmds = [] := by
  have hb := bare_sliceByVector S A _ _ _ _ hl
  have hbr : sliceBridge S A mesh sett layers ≠ .ok g := by
    rw [C70_bridge_no_overhang S A mesh sett layers hb (by intro q hq; rw [adjPairs_short layers h] at hq; cases hq)]
    simp
  have hro : sliceRotation S A mesh sett layers ≠ .ok g := by
    rw [C70_rotation_no_overhang S A mesh sett layers hb (by intro q hq; rw [adjPairs_short layers h] at hq; cases hq)]
    simp
  have hde : sliceDefault2 S A fuel mesh sett layers = .ok g → g.cmds = [] := by
    intro hd
    cases fuel with
    | zero => cases hd
    | succ k =>
      rw [C71_default_one_layer S A (k + 1) (Nat.succ_pos _) mesh sett layers h] at hd
      injection hd with hd
      rw [← hd]
  unfold vipSlice at hg
  rw [hp] at hg
  simp only [go_ok_bind, List.isEmpty_nil, Bool.not_true, Bool.false_eq_true, if_false, hl] at hg
  obtain ⟨l0, _, hg⟩ := bind_ok hg
  obtain ⟨op, _, hg⟩ := bind_ok hg
  split at hg
  · exact absurd hg hbr
  · obtain ⟨p0, _, hg⟩ := bind_ok hg
    obtain ⟨b, _, hg⟩ := bind_ok hg
    split at hg
    · obtain ⟨l1, _, hg⟩ := bind_ok hg
      obtain ⟨top, _, hg⟩ := bind_ok hg
      obtain ⟨q0, _, hg⟩ := bind_ok hg
      obtain ⟨b', _, hg⟩ := bind_ok hg
      split at hg
      · exact absurd hg hro
      · exact hde hg
    · exact hde hg
end

/-- **C71, negation.** Nothing of any model at most one layer high is printed by `vip.Slice` without planes file. -/
theorem C71_violated [FltText XR] (S : Sorter) (A : Arrival XR) (fuel : Nat) (planes : Option Bytes) (ts : List RTri) (sett : Settings XR)
    (lo hi t : ℝ) (hp : readPlanes planes = .ok ([] : List (AnalyzedPlane XR))) (he : Extent ts ⟨0, 0, 1⟩ lo hi)
    (hr : ∀ w ∈ allVerts ts, |w.dot ⟨0, 0, 1⟩| ≤ XR.maxF64R) (hf : SupportsFinite sett) (hlt : lo < hi)
    (hh : sett.layerHeight = XR.fin t) (hthin : hi - lo ≤ t) (g : Gcode XR) (hg : vipSlice S A fuel planes (rmesh ts) sett = .ok g) :
    g.cmds = [] := by
  have hne : ts ≠ [] := by
    rintro rfl
    obtain ⟨w, hw, _⟩ := he.1.1
    simp [allVerts] at hw
  cases hl : sliceByVector S A (some (rmesh ts)) axisZ sett with
  | error e =>
    unfold vipSlice at hg
    rw [hp] at hg
    simp only [go_ok_bind, List.isEmpty_nil, Bool.not_true, Bool.false_eq_true, if_false, hl] at hg
    cases hg
  | ok layers =>
    refine C71_vip_one_layer S A fuel planes (rmesh ts) sett layers hp hl ?_ g hg
    have ht : 0 < t := by linarith
    have hone : (hi - lo) / t ≤ 1 := (div_le_one ht).2 hthin
    have hc : ⌈(hi - lo) / t⌉ = 1 := by
      apply le_antisymm
      · exact Int.ceil_le.2 (by simpa using hone)
      · exact Int.ceil_pos.2 (div_pos (by linarith) ht)
    have hd : (⟨0, 0, 1⟩ : R3) ≠ 0 := by intro h; have := congrArg R3.z h; simp at this
    obtain ⟨jobs, hj, hlen, _⟩ := C11_planes S ts ⟨0, 0, 1⟩ hd sett lo hi t (by rw [upUnit]; exact he) (by rw [upUnit]; exact hr) hf hlt hh ht
      (by rw [hc]; norm_num)
    rw [hc] at hlen
    rw [axisZ_vec] at hl
    obtain ⟨jobs', full, pre, post, h1, h2, h3, _⟩ := C11_dropped S A (rmesh ts) (R3.mk 0 0 1).vec sett (by
      intro h; apply hne; simpa [rmesh] using h) layers hl
    rw [hj] at h1
    injection h1 with h1
    subst h1
    have h4 : full.length = 1 := by
      obtain ⟨out, ho, hm⟩ := go_mapM_total (runJob S) jobs fun j _ => by
        obtain ⟨l, hl, _⟩ := runJob_total S j; exact ⟨l, hl⟩
      rw [h2] at ho
      injection ho with ho
      subst ho
      rw [← hm.length_eq]
      exact_mod_cast hlen
    rw [h3] at h4
    simp only [List.length_append] at h4
    omega

section
open RatToy
attribute [local instance] RatToy.flt RatToy.txt
/-- the hypotheses of `C71_default_partial`: a pillar with two layers -/
def pillar : Mesh Rat := ⟨tube 0 2 (corner 0 0 10)⟩
example : (sliceByVector Sorter.insertion inOrder (some pillar) axisZ plain >>= fun ls =>
    (adjPairs ls).mapM fun q => (calculateFails q.1 q.2.paths).map Option.isSome) = .ok [false] := by decide +kernel
/-- and a plate as high as one layer: the slicer returns, and prints nothing -/
example : (vipSlice Sorter.insertion inOrder 1 none ⟨tube 0 1 (corner 0 0 10)⟩ plain).map (fun g => g.cmds.length) = .ok 0 := by decide +kernel
end

end Goosli
