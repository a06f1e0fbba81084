import Verif.Proofs.B64Planes
import Verif.Props.C101
/-!
# C102: fill lines in float64
-/
set_option autoImplicit false
namespace Goosli
open Flt R3 Classical

/-- `w` is the crossing of the side `q` with the plane as the program finds it -/
structure CrossF (P N : R3) (g h : ℝ) (q : R3 × R3) (w : R3) : Prop where
  isF : w.isF
  z : w.z = h
  x : |w.x - (cutPoint P N q).x| ≤ 1 / 10 ^ 8 / g
  y : |w.y - (cutPoint P N q).y| ≤ 1 / 10 ^ 8 / g
  height : |R3.height P N w| ≤ 2 / 10 ^ 11
  side : ∃ t : ℝ, 0 ≤ t ∧ t ≤ 1 ∧ |w.x - (q.1.x + t * (q.2.x - q.1.x))| ≤ 1 / 10 ^ 12 ∧ |w.y - (q.1.y + t * (q.2.y - q.1.y))| ≤ 1 / 10 ^ 12

/-- the contours of a layer as the program stores them: at height `h`, and no corner closer than `g` to the plane -/
structure ContoursF (P N : R3) (g h : ℝ) (cs : List (List R3)) : Prop where
  closed : ∀ c ∈ cs, c ≠ [] ∧ c.head? = c.getLast?
  isF : ∀ c ∈ cs, ∀ w ∈ c, w.isF
  box : ∀ c ∈ cs, ∀ w ∈ c, w.inBox
  level : ∀ c ∈ cs, ∀ w ∈ c, w.z = h
  off : ∀ c ∈ cs, ∀ w ∈ c, g ≤ |R3.height P N w|

theorem planeCrossings_f64 {P N : R3} {g h : ℝ} {cs : List (List R3)} (hp : FillPlaneF P N) (hg : 1 / 10 ^ 7 ≤ g) (hg1 : g ≤ 1)
    (H : ContoursF P N g h cs) :
    ∃ W : List R3, planeCrossings (cs.map fpath) (planeF P N) = W.map R3.f64 ∧
      List.Forall₂ (CrossF P N g h) ((contourEdges cs).filter fun e => decide (cutsEdge P N e)) W := by
  have key : ∀ es : List (R3 × R3), (∀ e ∈ es, ∃ c ∈ cs, e.1 ∈ c ∧ e.2 ∈ c) →
      ∃ W : List R3, es.filterMap (fun e => (planeF P N).intersectSegment e.1.f64 e.2.f64) = W.map R3.f64 ∧
        List.Forall₂ (CrossF P N g h) (es.filter fun e => decide (cutsEdge P N e)) W := by
    intro es
    induction es with
    | nil => intro _; exact ⟨[], rfl, .nil⟩
    | cons e es ih =>
      intro hm
      obtain ⟨W, h1, h2⟩ := ih fun e he => hm e (List.mem_cons_of_mem _ he)
      obtain ⟨c, hc, m1, m2⟩ := hm e (by simp)
      obtain ⟨k1, k2⟩ := segment_vert hp hg hg1 (H.isF c hc _ m1) (H.isF c hc _ m2) (H.box c hc _ m1) (H.box c hc _ m2)
        ((H.level c hc _ m1).trans (H.level c hc _ m2).symm) (H.off c hc _ m1) (H.off c hc _ m2)
      rw [List.filterMap_cons, List.filter_cons]
      by_cases hcut : cutsEdge P N e
      · obtain ⟨w, hw, a1, a2, a3, a4, a5, a6⟩ := k1 hcut
        rw [hw]
        simp only [hcut, decide_true, if_true]
        exact ⟨w :: W, by rw [h1]; rfl, .cons ⟨a1, a2.trans (H.level c hc _ m1), a3, a4, a5, a6⟩ h2⟩
      · rw [k2 hcut]
        simp only [hcut, decide_false, Bool.false_eq_true, if_false]
        exact ⟨W, h1, h2⟩
  have e1 : planeCrossings (cs.map fpath) (planeF P N) =
      (contourEdges cs).filterMap (fun e => (planeF P N).intersectSegment e.1.f64 e.2.f64) := by
    unfold planeCrossings contourEdges
    rw [List.filterMap_flatMap, List.flatMap_map]
    congr 1
    funext c
    rw [show (fpath c).points = c.map R3.f64 from rfl, adjPairs_map, List.filterMap_map]
    rfl
  rw [e1]
  refine key _ fun e he => ?_
  obtain ⟨c, hc, hec⟩ := List.mem_flatMap.1 he
  have := mem_sides (ws := c) hec
  exact ⟨c, hc, this.1, this.2⟩

/-- sorting points by Y -/
theorem sortCrossings_f64 (S : Sorter) {P N : R3} (hp : FillPlaneF P N) (W : List R3) (hW : ∀ w ∈ W, w.isF) :
    ∃ L : List R3, sortCrossings S (planeF P N) (W.map R3.f64) = L.map R3.f64 ∧ L.Perm W ∧ L.Pairwise (fun a b => a.y ≤ b.y) := by
  have hless : ∀ a b : R3, a.isF → b.isF → (a.f64.y <? b.f64.y) = decide (a.y < b.y) := fun a b ha hb => B64.lt_of ha.2.1 hb.2.1
  have hsw : StrictWeakOn (fun a b : Point B64 => a.y <? b.y) (W.map R3.f64) := by
    refine ⟨fun a ha => ?_, fun a ha b hb c hc => ?_, fun a ha b hb c hc => ?_⟩
    · obtain ⟨u, hu, rfl⟩ := List.mem_map.1 ha
      rw [hless u u (hW u hu) (hW u hu)]; simp
    · obtain ⟨u, hu, rfl⟩ := List.mem_map.1 ha
      obtain ⟨v, hv, rfl⟩ := List.mem_map.1 hb
      obtain ⟨w, hw, rfl⟩ := List.mem_map.1 hc
      rw [hless _ _ (hW _ hu) (hW _ hv), hless _ _ (hW _ hv) (hW _ hw), hless _ _ (hW _ hu) (hW _ hw)]
      simp only [decide_eq_true_eq]
      exact lt_trans
    · obtain ⟨u, hu, rfl⟩ := List.mem_map.1 ha
      obtain ⟨v, hv, rfl⟩ := List.mem_map.1 hb
      obtain ⟨w, hw, rfl⟩ := List.mem_map.1 hc
      rw [hless _ _ (hW _ hu) (hW _ hv), hless _ _ (hW _ hv) (hW _ hu), hless _ _ (hW _ hv) (hW _ hw), hless _ _ (hW _ hw) (hW _ hv),
        hless _ _ (hW _ hu) (hW _ hw), hless _ _ (hW _ hw) (hW _ hu)]
      simp only [decide_eq_false_iff_not, not_lt]
      intro h1 h2 h3 h4
      constructor <;> linarith
  unfold sortCrossings
  rw [sortsByX_f64 hp]
  simp only [Bool.false_eq_true, if_false]
  obtain ⟨L, hL, he⟩ := perm_map_exists (S.perm (fun a b : Point B64 => a.y <? b.y) (W.map R3.f64)) rfl
  refine ⟨L, he, hL, ?_⟩
  have := S.sorted _ _ hsw
  rw [he, List.pairwise_map] at this
  refine this.imp_of_mem ?_
  intro a b ha hb hab
  rw [hless _ _ (hW _ (hL.mem_iff.1 hb)) (hW _ (hL.mem_iff.1 ha))] at hab
  simpa using hab

/-- a fill line of the program -/
noncomputable def fline (s : R3 × R3) : Path B64 := fpath [s.1, s.2]

theorem pairUp_f64 : ∀ L : List R3, pairUp (L.map R3.f64) = (pairsOf L).map fline
  | [] => rfl
  | [_] => rfl
  | a :: b :: t => by simp only [List.map_cons, pairUp, pairsOf, pairUp_f64 t]; rfl

/-- the point `x` is on the fill line `s`: at its Y the line passes within `1e-10` -/
def OnLineF (s : R3 × R3) (x : R3) : Prop :=
  ∃ t : ℝ, 0 < t ∧ t < 1 ∧ (s.1 + t • (s.2 - s.1)).y = x.y ∧ |(s.1 + t • (s.2 - s.1)).x - x.x| ≤ 1 / 10 ^ 10

/-- the ends of a fill line: at the height of the layer, within `2e-11` of the fill plane and `1e-12` of a side of a contour -/
def EndF (P N : R3) (h : ℝ) (cs : List (List R3)) (w : R3) : Prop :=
  w.isF ∧ w.z = h ∧ |R3.height P N w| ≤ 2 / 10 ^ 11 ∧ ∃ c ∈ cs, ∃ q ∈ sides c, ∃ t : ℝ, 0 ≤ t ∧ t ≤ 1 ∧
    |w.x - (q.1.x + t * (q.2.x - q.1.x))| ≤ 1 / 10 ^ 12 ∧ |w.y - (q.1.y + t * (q.2.y - q.1.y))| ≤ 1 / 10 ^ 12

/-- the fill lines `segs` are the inside of the contours `cs` on the plane, up to `3e-8 / g` -/
def FillsF (P N : R3) (g h : ℝ) (cs : List (List R3)) (segs : List (R3 × R3)) : Prop :=
  (∀ s ∈ segs, s.1.y ≤ s.2.y ∧ EndF P N h cs s.1 ∧ EndF P N h cs s.2) ∧ segs.Pairwise (fun s t => s.2.y ≤ t.1.y) ∧
  ∀ x : R3, x.z = h → R3.height P N x = 0 → (∀ c ∈ cs, FarFrom (3 / 10 ^ 8 / g) x c) → (InsideOdd x cs ↔ ∃ s ∈ segs, OnLineF s x)

/-- **C102, one plane.** The fill lines that the program computes in `float64` on a vertical plane from which all corners of the contours
keep a distance of `g` or more: their ends are on the plane and on the contours, and a point of the plane farther than `3e-8 / g` from the
contours is inside an odd number of them exactly if it is on a fill line. -/
theorem C102_lines (S : Sorter) {P N : R3} {g h : ℝ} {cs : List (List R3)} (hp : FillPlaneF P N) (hg : 1 / 10 ^ 7 ≤ g) (hg1 : g ≤ 1)
    (H : ContoursF P N g h cs) :
    ∃ segs : List (R3 × R3), intersectByPlane S (cs.map fpath) (planeF P N) = segs.map fline ∧ FillsF P N g h cs segs := by
  have hgp : 0 < g := by norm_num at *; linarith
  obtain ⟨W, hW, hall⟩ := planeCrossings_f64 hp hg hg1 H
  have hWc : ∀ w ∈ W, ∃ q ∈ (contourEdges cs).filter (fun e => decide (cutsEdge P N e)), CrossF P N g h q w :=
    fun w hw => forall₂_mem_right hall hw
  obtain ⟨L, hL, hperm, hsort⟩ := sortCrossings_f64 S hp W fun w hw => by
    obtain ⟨q, -, hq⟩ := hWc w hw; exact hq.isF
  have hoff : ∀ c ∈ cs, ∀ w ∈ c, R3.height P N w ≠ 0 := by
    intro c hc w hw h
    have := H.off c hc w hw
    rw [h, abs_zero] at this
    linarith
  have hclosed : ∀ c ∈ cs, closedContour c := by
    intro c hc
    obtain ⟨h2, he⟩ := H.closed c hc
    cases c with
    | nil => simp at h2
    | cons a t => exact ⟨a, t, rfl, by rw [← he]; rfl⟩
  have heven := cutPoints_even P N cs hclosed hoff
  have hlenE : (cutPoints P N cs).length = W.length := by
    unfold cutPoints; rw [List.length_map]; exact hall.length_eq
  have hlen : L.length % 2 = 0 := by rw [hperm.length_eq, ← hlenE]; exact heven
  have hlines : intersectByPlane S (cs.map fpath) (planeF P N) = (pairsOf L).map fline := by
    have hl : (planeCrossings (cs.map fpath) (planeF P N)).length = L.length := by rw [hW, List.length_map, hperm.length_eq]
    unfold intersectByPlane
    dsimp only
    rw [hl, hW, hL]
    match L, hlen with
    | [], _ => rfl
    | [a, b], _ => rfl
    | [a, b, c], h => simp at h
    | [a, b, c, d], _ => rfl
    | a :: b :: c :: d :: e :: t, _ =>
      rw [if_neg (by simp), if_pos (by simp), pairUp_f64]
  refine ⟨pairsOf L, hlines, ?_, (pairsOf_sorted (fun w : R3 => w.y) L hsort).1, ?_⟩
  · have hend : ∀ w ∈ L, EndF P N h cs w := by
      intro w hw
      obtain ⟨q, hq, hc⟩ := hWc w (hperm.mem_iff.1 hw)
      obtain ⟨c, hcm, hqc⟩ := List.mem_flatMap.1 (List.mem_filter.1 hq).1
      exact ⟨hc.isF, hc.z, hc.height, c, hcm, q, hqc, hc.side⟩
    intro s hs
    have hm := pairsOf_mem L s hs
    exact ⟨(pairsOf_sorted (fun w : R3 => w.y) L hsort).2 s hs, hend _ hm.1, hend _ hm.2⟩
  · intro x hxz hx hfar
    have hkey : fillKey P N = fun w : R3 => w.y := by
      funext w
      unfold fillKey
      rw [sortsByX_vert hp.nx hp.ny hp.nz hp.slope]
      simp
    have hN : N ≠ 0 := by
      intro h
      have := hp.slope
      rw [h] at this
      simp at this
      norm_num at this
    have hon : ∀ c ∈ cs, ¬ OnContour x c := by
      rintro c hc ⟨q, hq, t, h0, h1, ex, ey⟩
      have := hfar c hc q hq t h0 h1
      simp [R3.distSq2, ex, ey] at this
      have : 0 ≤ (3 / 10 ^ 8 / g) ^ 2 := sq_nonneg _
      norm_num at *
      linarith
    have heo := evenOdd_insideOdd cs hp.nz hN H.closed hoff H.level hx hxz hon
    -- two points of the plane differ rather in Y
    have hslant : ∀ {w : R3} {δ : ℝ}, |R3.height P N w| ≤ δ → |w.x - x.x| ≤ 2 * (δ + |w.y - x.y|) := by
      intro w δ hw
      rw [height_vert hp.nz] at hw hx
      have e : (w.x - x.x) * N.x = (w.x * N.x + w.y * N.y - (P.x * N.x + P.y * N.y)) - (w.y - x.y) * N.y := by linarith
      have t : |(w.x - x.x) * N.x| ≤ δ + |w.y - x.y| := by
        rw [e]
        refine (abs_sub _ _).trans (add_le_add hw ?_)
        rw [abs_mul]
        exact mul_le_of_le_one_right (abs_nonneg _) hp.ny
      rw [abs_mul] at t
      nlinarith [hp.slope, abs_nonneg (w.x - x.x)]
    -- the exact crossings are far from `x`
    have hfarY : ∀ q ∈ (contourEdges cs).filter (fun e => decide (cutsEdge P N e)), 1 / 10 ^ 8 / g < |(cutPoint P N q).y - x.y| := by
      intro q hq
      obtain ⟨hq1, hq2⟩ := List.mem_filter.1 hq
      obtain ⟨c, hc, hqc⟩ := List.mem_flatMap.1 hq1
      obtain ⟨r, h0, h1, hcp, hh⟩ := cut_on (P := P) (N := N) (q := q) (by simpa using hq2)
      have hf := hfar c hc q hqc r h0 h1
      rw [← hcp] at hf
      have hs := hslant (w := cutPoint P N q) (δ := 0) (by rw [hh, abs_zero])
      rw [zero_add] at hs
      by_contra hlt
      push Not at hlt
      have i3 : (1 : ℝ) / 10 ^ 8 / g = 1 / 10 ^ 8 * (1 / g) := by ring
      have i4 : (3 : ℝ) / 10 ^ 8 / g = 3 * (1 / 10 ^ 8 / g) := by ring
      rw [i4] at hf
      have ex : ((cutPoint P N q).x - x.x) ^ 2 ≤ 4 * (1 / 10 ^ 8 / g) ^ 2 := by
        rw [← sq_abs]
        have := pow_le_pow_left₀ (abs_nonneg _) (hs.trans (mul_le_mul_of_nonneg_left hlt (by norm_num))) 2
        rw [mul_pow] at this
        norm_num at this ⊢
        exact this
      have ey : ((cutPoint P N q).y - x.y) ^ 2 ≤ (1 / 10 ^ 8 / g) ^ 2 := by
        rw [← sq_abs]
        exact pow_le_pow_left₀ (abs_nonneg _) hlt 2
      have e : R3.distSq2 (cutPoint P N q) x = ((cutPoint P N q).x - x.x) ^ 2 + ((cutPoint P N q).y - x.y) ^ 2 := by
        simp [R3.distSq2]
      rw [e, mul_pow] at hf
      have pos : 0 < (1 / 10 ^ 8 / g) ^ 2 := by positivity
      linarith
    have hcount : L.countP (fun c => decide (c.y < x.y)) = (cutPoints P N cs).countP fun c => decide (c.y < x.y) := by
      rw [hperm.countP_eq]
      unfold cutPoints
      have : ∀ {E : List (R3 × R3)} {W : List R3}, List.Forall₂ (CrossF P N g h) E W →
          (∀ q ∈ E, 1 / 10 ^ 8 / g < |(cutPoint P N q).y - x.y|) →
          W.countP (fun c => decide (c.y < x.y)) = (E.map (cutPoint P N)).countP fun c => decide (c.y < x.y) := by
        intro E W hEW
        induction hEW with
        | nil => intro _; rfl
        | cons hr _ ih =>
          intro hf
          rw [List.map_cons, List.countP_cons, List.countP_cons, ih fun q hq => hf q (List.mem_cons_of_mem _ hq)]
          have h1 := hf _ List.mem_cons_self
          have h2 := abs_le.1 hr.y
          congr 1
          have : ∀ {a b c δ : ℝ}, δ < |b - c| → -δ ≤ a - b → a - b ≤ δ → (a < c ↔ b < c) := by
            intro a b c δ h1 h2 h3
            rcases lt_abs.1 h1 with h | h
            · constructor <;> intro <;> linarith
            · constructor <;> intro <;> linarith
          simp only [this h1 h2.1 h2.2]
      exact this hall hfarY
    have hne : ∀ w ∈ L, w.y ≠ x.y := by
      intro w hw he
      obtain ⟨q, hq, hc⟩ := hWc w (hperm.mem_iff.1 hw)
      have h1 := hfarY q hq
      have h2 := hc.y
      rw [he, abs_sub_comm] at h2
      linarith
    have hiff : InsideOdd x cs ↔ L.countP (fun c => decide (c.y < x.y)) % 2 = 1 := by
      rw [← heo, hcount]
      unfold evenOddInside
      rw [hkey]
    have hHt : ∀ w ∈ L, |R3.height P N w| ≤ 2 / 10 ^ 11 := by
      intro w hw
      obtain ⟨q, -, hc⟩ := hWc w (hperm.mem_iff.1 hw)
      exact hc.height
    rw [hiff]
    constructor
    · intro ho
      obtain ⟨s, hs, k1, k2⟩ := pairs_of_odd (fun w : R3 => w.y) x.y L hsort hlen hne ho
      have hm := pairsOf_mem L s hs
      have hpos : 0 < s.2.y - s.1.y := by linarith
      refine ⟨s, hs, (x.y - s.1.y) / (s.2.y - s.1.y), div_pos (by linarith) hpos, by rw [div_lt_one hpos]; linarith, ?_, ?_⟩
      · simp; field_simp; ring
      · set t := (x.y - s.1.y) / (s.2.y - s.1.y) with ht
        have t0 : 0 ≤ t := div_nonneg (by linarith) hpos.le
        have t1 : t ≤ 1 := by rw [ht, div_le_one hpos]; linarith
        have hh : |R3.height P N (s.1 + t • (s.2 - s.1))| ≤ 2 / 10 ^ 11 := by
          rw [height_side]
          have a := abs_le.1 (hHt _ hm.1)
          have b := abs_le.1 (hHt _ hm.2)
          rw [abs_le]
          constructor <;> nlinarith
        have := hslant hh
        have ey : (s.1 + t • (s.2 - s.1)).y - x.y = 0 := by
          simp [ht]; field_simp; ring
        rw [ey, abs_zero] at this
        norm_num at *
        linarith
    · rintro ⟨s, hs, t, t0, t1, ey, -⟩
      have hm := pairsOf_mem L s hs
      have hle := (pairsOf_sorted (fun w : R3 => w.y) L hsort).2 s hs
      have ey' : s.1.y + t * (s.2.y - s.1.y) = x.y := by simpa using ey
      have hlt : s.1.y < s.2.y := by
        refine lt_of_le_of_ne hle fun he => hne _ hm.1 ?_
        rw [← ey', ← he]; ring
      exact countP_pairs (fun w : R3 => w.y) x.y L hsort s hs (by nlinarith) (by nlinarith)

/-! ## all planes of a layer -/

/-- a point within `1e-12` of a side of one of the contours -/
def NearSide (cs : List (List R3)) (w : R3) : Prop :=
  ∃ c ∈ cs, ∃ q ∈ sides c, ∃ t : ℝ, 0 ≤ t ∧ t ≤ 1 ∧
    |w.x - (q.1.x + t * (q.2.x - q.1.x))| ≤ 1 / 10 ^ 12 ∧ |w.y - (q.1.y + t * (q.2.y - q.1.y))| ≤ 1 / 10 ^ 12

theorem onBed_near {cs : List (List R3)} {w : R3} (hb : ∀ c ∈ cs, ∀ w ∈ c, w.inBox) (h : NearSide cs w) (hz : |w.z| ≤ 1100) : w.onBed := by
  obtain ⟨c, hc, q, hq, t, t0, t1, ex, ey⟩ := h
  have b1 := hb c hc _ (mem_sides hq).1
  have b2 := hb c hc _ (mem_sides hq).2
  have key : ∀ {x y w : ℝ}, |x| ≤ 1100 → |y| ≤ 1100 → |w - (x + t * (y - x))| ≤ 1 / 10 ^ 12 → |w| ≤ 2 ^ 20 := by
    intro x y w hx hy hw
    have hX : |x + t * (y - x)| ≤ 1100 := by
      rw [abs_le] at hx hy ⊢
      constructor <;> nlinarith
    have := abs_sub_abs_le_abs_sub w (x + t * (y - x))
    norm_num at *
    linarith
  exact ⟨key b1.1 b2.1 ex, key b1.2.1 b2.2.1 ey, hz.trans (by norm_num)⟩

/-- lines one after the other in Y, without overlap -/
def OneAfterOther (ls : List (R3 × R3)) : Prop := (∀ s ∈ ls, s.1.y ≤ s.2.y) ∧ ls.Pairwise fun s t => s.2.y ≤ t.1.y

/-- the computed intersection of a side with a plane is on the plane -/
theorem on_plane {P N u v : R3} (hp : FillPlaneF P N) (hu : u.isF) (hv : v.isF) (bu : u.inBox) (bv : v.inBox) (hne : ¬ dotF N u = dotF N v)
    (t0 : 0 ≤ paramF (dotF N P) (dotF N u) (dotF N v)) (t1 : paramF (dotF N P) (dotF N u) (dotF N v) ≤ 1) {w : R3}
    (cx : |w.x - (u.x + paramF (dotF N P) (dotF N u) (dotF N v) * (v.x - u.x))| ≤ 1 / 10 ^ 12)
    (cy : |w.y - (u.y + paramF (dotF N P) (dotF N u) (dotF N v) * (v.y - u.y))| ≤ 1 / 10 ^ 12) : |R3.height P N w| ≤ 2 / 10 ^ 11 := by
  obtain ⟨dA, FA, eA, bA⟩ := dotF_of (M := 1100) (by norm_num) (by norm_num) hu hp.nF bu.1 bu.2.1 hp.nx hp.ny hp.nz
  obtain ⟨dB, FB, eB, bB⟩ := dotF_of (M := 1100) (by norm_num) (by norm_num) hv hp.nF bv.1 bv.2.1 hp.nx hp.ny hp.nz
  obtain ⟨dP, FP, eP, bP⟩ := dotF_of (M := 4000) (by norm_num) (by norm_num) hp.pF hp.nF hp.px hp.py hp.nx hp.ny hp.nz
  have hu' := height_vert (P := P) (u := u) hp.nz
  have hv' := height_vert (P := P) (u := v) hp.nz
  set A := dotF N u
  set B := dotF N v
  set H := dotF N P
  have dn := abs_sub (H) A
  have dd := abs_sub B A
  have rn := rd_err (M := 10710) (by norm_num) (show |H - A| ≤ 10710 by linarith)
  have rdd := rd_err (M := 4620) (by norm_num) (show |B - A| ≤ 4620 by linarith)
  have hn : |rd (H - A) - -R3.height P N u| ≤ 4 / 10 ^ 12 := by
    rw [hu']
    rw [abs_le] at *
    norm_num at *
    constructor <;> linarith
  have hd : |rd (B - A) - (R3.height P N v - R3.height P N u)| ≤ 2 / 10 ^ 12 := by
    rw [hu', hv']
    rw [abs_le] at *
    norm_num at *
    constructor <;> linarith
  have bd : |rd (B - A)| ≤ 10 ^ 4 := (rd_bound (M := 4620) (by norm_num) (by linarith)).trans (by norm_num)
  have d0 : rd (B - A) ≠ 0 := by
    rw [Ne, rd_eq_zero (FB.1.onGrid.sub FA.1.onGrid)]
    intro h; exact hne (by linarith)
  have ep : rd (rd (H - A) / rd (B - A)) = paramF H A B := rfl
  have e2 := param_on hn hd bd d0 (by rw [ep]; exact t0) (by rw [ep]; exact t1)
  rw [ep] at e2
  rw [height_vert hp.nz]
  have m1 := mul_unit cx hp.nx
  have m2 := mul_unit cy hp.ny
  have e : w.x * N.x + w.y * N.y - (P.x * N.x + P.y * N.y) =
      (w.x - (u.x + paramF H A B * (v.x - u.x))) * N.x + (w.y - (u.y + paramF H A B * (v.y - u.y))) * N.y +
      (paramF H A B * (R3.height P N v - R3.height P N u) - -R3.height P N u) := by
    rw [hu', hv']; ring
  rw [e]
  refine (abs_add_three _ _ _).trans ?_
  clear * - m1 m2 e2
  norm_num at *
  linarith

/-- lines on the plane, one after the other -/
def LinesOn (P N : R3) (ls : List (R3 × R3)) : Prop :=
  OneAfterOther ls ∧ ∀ s ∈ ls, ∀ w, w = s.1 ∨ w = s.2 → |R3.height P N w| ≤ 2 / 10 ^ 11

/-- whatever the plane, the fill lines end on the contours, and do not overlap -/
theorem lines_any0 (S : Sorter) {P N : R3} {h : ℝ} {cs : List (List R3)} (hp : FillPlaneF P N) (hF : ∀ c ∈ cs, ∀ w ∈ c, w.isF)
    (hb : ∀ c ∈ cs, ∀ w ∈ c, w.inBox) (hz : ∀ c ∈ cs, ∀ w ∈ c, w.z = h) :
    ∃ segs : List (R3 × R3), intersectByPlane S (cs.map fpath) (planeF P N) = segs.map fline ∧ OneAfterOther segs ∧
      ∀ s ∈ segs, ∀ w, w = s.1 ∨ w = s.2 → w.isF ∧ w.onBed ∧ w.z = h ∧ (NearSide cs w ∧ |R3.height P N w| ≤ 2 / 10 ^ 11) := by
  have hseg : ∀ c ∈ cs, ∀ q ∈ sides c, ∀ x, (planeF P N).intersectSegment q.1.f64 q.2.f64 = some x →
      ∃ w : R3, x = w.f64 ∧ w.isF ∧ w.onBed ∧ w.z = h ∧ (NearSide cs w ∧ |R3.height P N w| ≤ 2 / 10 ^ 11) := by
    intro c hc q hq x hx
    have hu := hF c hc _ (mem_sides hq).1
    have hv := hF c hc _ (mem_sides hq).2
    have bu := hb c hc _ (mem_sides hq).1
    have bv := hb c hc _ (mem_sides hq).2
    have zu := hz c hc _ (mem_sides hq).1
    have zv := hz c hc _ (mem_sides hq).2
    obtain ⟨dA, FA, eA, bA⟩ := dotF_of (M := 1100) (by norm_num) (by norm_num) hu hp.nF bu.1 bu.2.1 hp.nx hp.ny hp.nz
    obtain ⟨dB, FB, eB, bB⟩ := dotF_of (M := 1100) (by norm_num) (by norm_num) hv hp.nF bv.1 bv.2.1 hp.nx hp.ny hp.nz
    obtain ⟨dP, FP, eP, bP⟩ := dotF_of (M := 4000) (by norm_num) (by norm_num) hp.pF hp.nF hp.px hp.py hp.nx hp.ny hp.nz
    rw [segment_general (pl := planeF P N) dA dB dP FA FB FP (bA.trans (by norm_num)) (bB.trans (by norm_num)) (bP.trans (by norm_num))
      hu hv bu bv] at hx
    split at hx
    · cases hx
    · rename_i hne
      split at hx
      · cases hx
      · rename_i ht
        push Not at ht
        injection hx with hx
        obtain ⟨e1, f1⟩ := coord_box ht.1 ht.2 bu.1 bv.1
        obtain ⟨e2, f2⟩ := coord_box ht.1 ht.2 bu.2.1 bv.2.1
        have ez : coordF (paramF (dotF N P) (dotF N q.1) (dotF N q.2)) q.1.z q.2.z = h := by
          rw [zv, ← zu]; exact coord_same hu.2.2.1
        have hn : NearSide cs ⟨coordF (paramF (dotF N P) (dotF N q.1) (dotF N q.2)) q.1.x q.2.x,
            coordF (paramF (dotF N P) (dotF N q.1) (dotF N q.2)) q.1.y q.2.y,
            coordF (paramF (dotF N P) (dotF N q.1) (dotF N q.2)) q.1.z q.2.z⟩ := ⟨c, hc, q, hq, _, ht.1, ht.2, e1, e2⟩
        refine ⟨_, hx.symm, ⟨f1, f2, ?_⟩, onBed_near hb hn ?_, ez, hn, ?_⟩
        · show IsF (coordF _ q.1.z q.2.z)
          rw [ez, ← zu]; exact hu.2.2
        · show |coordF _ q.1.z q.2.z| ≤ 1100
          rw [ez, ← zu]; exact bu.2.2
        · exact on_plane hp hu hv bu bv hne ht.1 ht.2 e1 e2
  have hcross : ∃ W : List R3, planeCrossings (cs.map fpath) (planeF P N) = W.map R3.f64 ∧
      ∀ w ∈ W, w.isF ∧ w.onBed ∧ w.z = h ∧ (NearSide cs w ∧ |R3.height P N w| ≤ 2 / 10 ^ 11) := by
    have : ∀ l : List (Point B64), (∀ x ∈ l, ∃ w : R3, x = w.f64 ∧ w.isF ∧ w.onBed ∧ w.z = h ∧ (NearSide cs w ∧ |R3.height P N w| ≤ 2 / 10 ^ 11)) →
        ∃ W : List R3, l = W.map R3.f64 ∧ ∀ w ∈ W, w.isF ∧ w.onBed ∧ w.z = h ∧ (NearSide cs w ∧ |R3.height P N w| ≤ 2 / 10 ^ 11) := by
      intro l
      induction l with
      | nil => intro _; exact ⟨[], rfl, by simp⟩
      | cons a t ih =>
        intro hl
        obtain ⟨W, rfl, h2⟩ := ih fun x hx => hl x (List.mem_cons_of_mem _ hx)
        obtain ⟨w, rfl, hw⟩ := hl a (by simp)
        refine ⟨w :: W, rfl, fun v hv => ?_⟩
        rcases List.mem_cons.1 hv with rfl | hv
        · exact hw
        · exact h2 v hv
    refine this _ fun x hx => ?_
    unfold planeCrossings at hx
    rw [List.flatMap_map] at hx
    obtain ⟨c, hc, hx⟩ := List.mem_flatMap.1 hx
    rw [show (fpath c).points = c.map R3.f64 from rfl, adjPairs_map, List.filterMap_map] at hx
    obtain ⟨q, hq, hx⟩ := List.mem_filterMap.1 hx
    exact hseg c hc q hq x hx
  obtain ⟨W, hW, hall⟩ := hcross
  obtain ⟨L, hL, hperm, hsort⟩ := sortCrossings_f64 S hp W fun w hw => (hall w hw).1
  have hl : (planeCrossings (cs.map fpath) (planeF P N)).length = L.length := by rw [hW, List.length_map, hperm.length_eq]
  have hallL : ∀ w ∈ L, w.isF ∧ w.onBed ∧ w.z = h ∧ (NearSide cs w ∧ |R3.height P N w| ≤ 2 / 10 ^ 11) := fun w hw => hall w (hperm.mem_iff.1 hw)
  unfold intersectByPlane
  dsimp only
  rw [hl, hW, hL]
  clear hl hL hperm
  match L, hallL, hsort with
  | [], _, _ => exact ⟨[], rfl, ⟨by simp, .nil⟩, by simp⟩
  | [_], _, _ => exact ⟨[], rfl, ⟨by simp, .nil⟩, by simp⟩
  | [a, b], H, hs =>
    refine ⟨[(a, b)], rfl, ⟨by simpa using hs, List.pairwise_singleton _ _⟩, fun s hs w hw => H w ?_⟩
    rw [List.mem_singleton] at hs
    subst hs
    simpa using hw
  | [a, b, c], H, hs =>
    refine ⟨[(a, c)], rfl, ⟨by simp at hs; simpa using hs.1.2, List.pairwise_singleton _ _⟩, fun s hs w hw => H w ?_⟩
    rw [List.mem_singleton] at hs
    subst hs
    rcases hw with rfl | rfl <;> simp
  | [a, b, c, d], H, hs =>
    refine ⟨[(a, b), (c, d)], rfl, ⟨by simp at hs; simp; tauto, by simp at hs; simp; tauto⟩, fun s hs w hw => H w ?_⟩
    simp only [List.mem_cons, List.not_mem_nil, or_false] at hs
    rcases hs with rfl | rfl <;> rcases hw with rfl | rfl <;> simp
  | a :: b :: c :: d :: e :: t, H, hsort =>
    rw [if_neg (by simp), if_pos (by simp), pairUp_f64]
    have hp := pairsOf_sorted (fun w : R3 => w.y) _ hsort
    refine ⟨_, rfl, ⟨hp.2, hp.1⟩, fun s hs w hw => H w ?_⟩
    have := pairsOf_mem _ s hs
    rcases hw with rfl | rfl
    · exact this.1
    · exact this.2

/-- whatever the plane, the fill lines are on the plane, end on the contours, and do not overlap -/
theorem lines_any (S : Sorter) {P N : R3} {h : ℝ} {cs : List (List R3)} (hp : FillPlaneF P N) (hF : ∀ c ∈ cs, ∀ w ∈ c, w.isF)
    (hb : ∀ c ∈ cs, ∀ w ∈ c, w.inBox) (hz : ∀ c ∈ cs, ∀ w ∈ c, w.z = h) :
    ∃ segs : List (R3 × R3), intersectByPlane S (cs.map fpath) (planeF P N) = segs.map fline ∧ LinesOn P N segs ∧
      ∀ s ∈ segs, ∀ w, w = s.1 ∨ w = s.2 → w.isF ∧ w.onBed ∧ w.z = h ∧ NearSide cs w := by
  obtain ⟨segs, h1, h2, h3⟩ := lines_any0 S hp hF hb hz
  exact ⟨segs, h1, ⟨h2, fun s hs w hw => (h3 s hs w hw).2.2.2.2⟩, fun s hs w hw =>
    ⟨(h3 s hs w hw).1, (h3 s hs w hw).2.1, (h3 s hs w hw).2.2.1, (h3 s hs w hw).2.2.2.1⟩⟩

theorem f64_inj {a b : R3} (ha : a.isF) (hb : b.isF) (h : a.f64 = b.f64) : a = b := by
  have h1 := congrArg Point.x h
  have h2 := congrArg Point.y h
  have h3 := congrArg Point.z h
  exact R3.ext ((B64.of_inj ha.1 hb.1).1 h1) ((B64.of_inj ha.2.1 hb.2.1).1 h2) ((B64.of_inj ha.2.2 hb.2.2).1 h3)

theorem fline_inj : ∀ {a b : List (R3 × R3)}, (∀ s ∈ a, s.1.isF ∧ s.2.isF) → (∀ s ∈ b, s.1.isF ∧ s.2.isF) →
    a.map fline = b.map fline → a = b
  | [], [], _, _, _ => rfl
  | [], _ :: _, _, _, h => by simp at h
  | _ :: _, [], _, _, h => by simp at h
  | x :: a, y :: b, ha, hb, h => by
    simp only [List.map_cons, List.cons.injEq] at h
    obtain ⟨h1, h2⟩ := h
    rw [fline_inj (fun s hs => ha s (List.mem_cons_of_mem _ hs)) (fun s hs => hb s (List.mem_cons_of_mem _ hs)) h2]
    simp only [fline, fpath, List.map_cons, List.map_nil, Path.mk.injEq, List.cons.injEq, and_true] at h1
    have hx := ha x (by simp)
    have hy := hb y (by simp)
    rw [Prod.ext (f64_inj hx.1 hy.1 h1.1) (f64_inj hx.2 hy.2 h1.2)]

/-- ordering the fill lines keeps each of them exactly once, possibly reversed -/
theorem sortFill_f64 {segs : List (R3 × R3)} (hb : ∀ s ∈ segs, ∀ w, w = s.1 ∨ w = s.2 → w.isF ∧ w.onBed) :
    ∃ (out l : List (R3 × R3)), sortFillPathes (segs.map fline) = .ok (out.map fline) ∧ l.Perm segs ∧
      List.Forall₂ (fun s u => s = u ∨ s = u.swap) out l := by
  have hends : ∀ x ∈ (segs.map fline).flatMap pathEnds, ∃ w : R3, x = w.f64 ∧ w.isF ∧ w.onBed := by
    intro x hx
    obtain ⟨q, hq, hx⟩ := List.mem_flatMap.1 hx
    obtain ⟨s, hs, rfl⟩ := List.mem_map.1 hq
    have : x = s.1.f64 ∨ x = s.2.f64 := by simpa [pathEnds, fline, fpath] using hx
    rcases this with rfl | rfl
    · exact ⟨s.1, rfl, hb s hs _ (Or.inl rfl)⟩
    · exact ⟨s.2, rfl, hb s hs _ (Or.inr rfl)⟩
  have h32 : ∃ M : ℝ, (maxF32 : B64) = B64.of M ∧ IsF M ∧ 2 ^ 22 < M := by
    have hr : Rep XR.maxF32R := by
      refine ⟨(2 ^ 24 - 1), 104, by norm_num, by norm_num, ?_⟩
      unfold XR.maxF32R
      norm_num
    refine ⟨XR.maxF32R, ?_, ⟨hr, ?_⟩, ?_⟩
    · show B64.rnd (Flt.maxF32 : XR) = _
      rw [XR.maxF32_def]; rfl
    · rw [abs_of_nonneg (by unfold XR.maxF32R; norm_num)]
      have : (2 : ℝ) ^ 128 ≤ 2 ^ 1023 := pow_le_pow_right₀ (by norm_num) (by norm_num)
      unfold XR.maxF32R XR.maxF64R
      generalize (2 : ℝ) ^ 1023 = B at this ⊢
      norm_num at this ⊢
      linarith
    · unfold XR.maxF32R; norm_num
  obtain ⟨M, eM, FM, hM⟩ := h32
  have hd : ∀ d ∈ endDistances (segs.map fline), ∃ r : ℝ, d = B64.of r ∧ IsF r ∧ r ≤ 2 ^ 22 := by
    intro d hd
    obtain ⟨x, hx, hd⟩ := List.mem_flatMap.1 hd
    obtain ⟨y, hy, rfl⟩ := List.mem_map.1 hd
    obtain ⟨u, rfl, u1, u2⟩ := hends x hx
    obtain ⟨v, rfl, v1, v2⟩ := hends y hy
    obtain ⟨l, h1, h2, h3, h4, -⟩ := length_f64 v u v1 u1 v2 u2
    exact ⟨l, h1, h2, h4⟩
  have hall : ∀ d ∈ maxF32 :: endDistances (segs.map fline), ∃ r : ℝ, d = B64.of r ∧ IsF r := by
    intro d h
    rcases List.mem_cons.1 h with rfl | h
    · exact ⟨M, eM, FM⟩
    · obtain ⟨r, h1, h2, -⟩ := hd d h
      exact ⟨r, h1, h2⟩
  have hsw : StrictWeakOn (fun a b : B64 => a <? b) (maxF32 :: endDistances (segs.map fline)) := by
    refine ⟨fun a ha => ?_, fun a ha b hb c hc => ?_, fun a ha b hb c hc => ?_⟩
    · obtain ⟨u, rfl, hu⟩ := hall a ha
      rw [B64.lt_of hu hu]; simp
    · obtain ⟨u, rfl, hu⟩ := hall a ha
      obtain ⟨v, rfl, hv⟩ := hall b hb
      obtain ⟨w, rfl, hw⟩ := hall c hc
      rw [B64.lt_of hu hv, B64.lt_of hv hw, B64.lt_of hu hw]
      simp only [decide_eq_true_eq]
      exact lt_trans
    · obtain ⟨u, rfl, hu⟩ := hall a ha
      obtain ⟨v, rfl, hv⟩ := hall b hb
      obtain ⟨w, rfl, hw⟩ := hall c hc
      rw [B64.lt_of hu hv, B64.lt_of hv hu, B64.lt_of hv hw, B64.lt_of hw hv, B64.lt_of hu hw, B64.lt_of hw hu]
      simp only [decide_eq_false_iff_not, not_lt]
      intro h1 h2 h3 h4
      constructor <;> linarith
  obtain ⟨out, l', h1, -, h2, h3⟩ := C44_perm (segs.map fline) (by
      intro q hq
      obtain ⟨s, _, rfl⟩ := List.mem_map.1 hq
      simp [fline, fpath]) hsw (by
      intro d h
      obtain ⟨r, rfl, hr, hle⟩ := hd d h
      rw [eM, B64.lt_of hr FM]
      simp only [decide_eq_true_eq]
      linarith)
  obtain ⟨l, hl, rfl⟩ := perm_map_exists h2 rfl
  rw [List.forall₂_map_right_iff] at h3
  have : ∃ o : List (R3 × R3), out = o.map fline ∧ List.Forall₂ (fun s u => s = u ∨ s = u.swap) o l := by
    clear h1 h2 hl
    induction h3 with
    | nil => exact ⟨[], rfl, .nil⟩
    | @cons a b _ _ hr _ ih =>
      obtain ⟨o, rfl, ho⟩ := ih
      obtain ⟨pts⟩ := a
      rcases hr with h | h
      · exact ⟨b :: o, by simp only [List.map_cons]; congr 1; simp only at h; rw [h], .cons (Or.inl rfl) ho⟩
      · exact ⟨b.swap :: o, by simp only [List.map_cons]; congr 1; simp only at h; rw [h]; rfl, .cons (Or.inr rfl) ho⟩
  obtain ⟨o, rfl, ho⟩ := this
  exact ⟨o, l, h1, hl, ho⟩

/-- on the fill plane through `F` normal to `M`, the lines are the material of the model at height `h`: a point of the plane that is farther than
`ε` from the contours, farther than `1e-8` from the surface and in no thin triangle is in the material exactly if it is on a line -/
def FillIsMaterialF (ε h : ℝ) (ts : List RTri) (cs : List (List R3)) (F M : R3) (lines : List (R3 × R3)) : Prop :=
  ∀ x : R3, x.z = h → R3.height F M x = 0 → (∀ c ∈ cs, FarFrom ε x c) → FarFromSurface (1 / 10 ^ 8) (lvl h) zUp ts x → OffThinCuts h ts x →
    (InMaterial (lvl h) zUp ts x ↔ ∃ s ∈ lines, OnLineF s x)

/-- the fill lines `segs` of a layer with the contours `cs` are the model at height `h`: they are the lines of the planes, each exactly once, in
some order and possibly reversed; they end within `1e-12` of the contours and within `2e-11` of the plane; those of a plane do not overlap; and on a
plane from which the corners of the contours keep a distance of `g`, they are the material for points farther than `3e-8 / g` from the contours -/
def FillIsModelF (h : ℝ) (ts : List RTri) (cs : List (List R3)) (planes segs : List (R3 × R3)) : Prop :=
  ∃ (lines : R3 × R3 → List (R3 × R3)) (l : List (R3 × R3)), l.Perm (planes.flatMap lines) ∧
    List.Forall₂ (fun s u => s = u ∨ s = u.swap) segs l ∧
    (∀ f ∈ planes, ∀ s ∈ lines f, ∀ w, w = s.1 ∨ w = s.2 → w.isF ∧ w.onBed ∧ w.z = rd (r8 h) ∧ NearSide cs w) ∧
    (∀ f ∈ planes, LinesOn f.1 f.2 (lines f)) ∧
    ∀ f ∈ planes, ∀ g : ℝ, 1 / 10 ^ 7 ≤ g → g ≤ 1 → (∀ c ∈ cs, ∀ w ∈ c, g ≤ |R3.height f.1 f.2 w|) →
      FillIsMaterialF (3 / 10 ^ 8 / g) h ts cs f.1 f.2 (lines f)

/-- **C102.** Filling a layer in `float64`: if its contours are the cross-section of the model at height `h` and the fill planes are vertical, it
succeeds, keeps everything else of the layer, and the fill lines are the material of the model on the fill planes. -/
theorem C102_fill (S : Sorter) (ts : List RTri) (h : ℝ) (H : FloatSafe h ts) (cs : List (List R3)) (hcs : BoundMaterialF h ts cs)
    (sett : Settings B64) (sparse full : List (R3 × R3)) (hp : ∀ f ∈ sparse ++ full, FillPlaneF f.1 f.2) (n i : ℕ) (l : Layer B64)
    (hl : l.paths = cs.map fpath) (hi : l.innerPs = []) (hf : l.fill = []) :
    ∃ segs : List (R3 × R3), fillLayer S (planesF sparse) (planesF full) sett n i l = .ok { l with fill := segs.map fline } ∧
      FillIsModelF h ts cs (if solidLayer sett n i then full else sparse) segs := by
  have hst : ∀ c ∈ cs, ∀ w ∈ c, w.isF ∧ w.inBox ∧ w.z = rd (r8 h) := by
    intro c hc w hw
    obtain ⟨a, ha, rfl⟩ := (hcs.1 c hc).2.2 w hw
    have r := H.crossPoint ha
    exact ⟨(storedAt_isF r.1).1, (storedAt_isF r.1).2, by simp only [storedAt, r.2]⟩
  set planes := if solidLayer sett n i then full else sparse with hpl
  have hpp : ∀ f ∈ planes, FillPlaneF f.1 f.2 := by
    intro f hf
    apply hp
    rw [hpl] at hf
    split at hf
    · exact List.mem_append_right _ hf
    · exact List.mem_append_left _ hf
  have hex : ∀ f : R3 × R3, ∃ segs : List (R3 × R3), f ∈ planes →
      intersectByPlane S (cs.map fpath) (planeF f.1 f.2) = segs.map fline ∧ LinesOn f.1 f.2 segs ∧
        ∀ s ∈ segs, ∀ w, w = s.1 ∨ w = s.2 → w.isF ∧ w.onBed ∧ w.z = rd (r8 h) ∧ NearSide cs w := by
    intro f
    by_cases hm : f ∈ planes
    · obtain ⟨segs, h1, h2⟩ := lines_any S (h := rd (r8 h)) (hpp f hm) (fun c hc w hw => (hst c hc w hw).1) (fun c hc w hw => (hst c hc w hw).2.1)
        fun c hc w hw => (hst c hc w hw).2.2
      exact ⟨segs, fun _ => ⟨h1, h2⟩⟩
    · exact ⟨[], fun h => absurd h hm⟩
  choose lines hlines using hex
  obtain ⟨out, l', k1, k2, k3⟩ := sortFill_f64 (segs := planes.flatMap lines) (by
    intro s hs w hw
    obtain ⟨f, hf, hsf⟩ := List.mem_flatMap.1 hs
    have := (hlines f hf).2.2 s hsf w hw
    exact ⟨this.1, this.2.1⟩)
  have hflat : (planesF planes).flatMap (fun p => intersectByPlane S (cs.map fpath) p) = (planes.flatMap lines).map fline := by
    unfold planesF
    rw [List.flatMap_map, List.map_flatMap]
    exact List.flatMap_congr fun f hf => (hlines f hf).1
  refine ⟨out, ?_, lines, l', k2, k3, fun f hf => (hlines f hf).2.2, fun f hf => (hlines f hf).2.1, fun f hf g hg hg1 hoff => ?_⟩
  · have hps : (if solidLayer sett n i then planesF full else planesF sparse) = planesF planes := by
      rw [hpl]; split <;> rfl
    unfold fillLayer fillContours
    simp only [hps, hi, hf, hl, List.isEmpty_nil, if_true, List.nil_append, hflat, k1]
    rfl
  · obtain ⟨segs, s1, s2, -, s3⟩ := C102_lines S (h := rd (r8 h)) (hpp f hf) hg hg1 (cs := cs)
      ⟨fun c hc => ⟨(hcs.1 c hc).1, (hcs.1 c hc).2.1⟩, fun c hc w hw => (hst c hc w hw).1, fun c hc w hw => (hst c hc w hw).2.1,
        fun c hc w hw => (hst c hc w hw).2.2, hoff⟩
    have hsame : lines f = segs := by
      refine fline_inj (fun s hs => ⟨((hlines f hf).2.2 s hs _ (Or.inl rfl)).1, ((hlines f hf).2.2 s hs _ (Or.inr rfl)).1⟩)
        (fun s hs => ⟨(s2 s hs).2.1.1, (s2 s hs).2.2.1⟩) ?_
      rw [← (hlines f hf).1, s1]
    rw [hsame]
    intro x hz hx hfar hsurf hthin
    rw [← (hcs.2 x hz hsurf hthin).2]
    have hx' : R3.height f.1 f.2 (⟨x.x, x.y, rd (r8 h)⟩ : R3) = 0 := by
      rw [← hx]; exact height_xy (hpp f hf).nz rfl rfl
    exact (insideOdd_xy (x := ⟨x.x, x.y, rd (r8 h)⟩) rfl rfl cs).symm.trans (s3 ⟨x.x, x.y, rd (r8 h)⟩ rfl hx' hfar)

/-! ## Non-vacuity -/

theorem exTetra_stored {w : R3} (hw : CrossPoint (lvl 1) zUp exTetra w) :
    storedAt w = ⟨0, 0, 1⟩ ∨ storedAt w = ⟨3, 0, 1⟩ ∨ storedAt w = ⟨0, 3, 1⟩ := by
  have r3 : rd 3 = 3 := rd_of_rep (by simpa using rep_int (n := 3) (by norm_num))
  have r1 : rd 1 = 1 := rd_of_rep isF_one.1
  have e : storedAt w = ⟨rd w.round8.x, rd w.round8.y, rd w.round8.z⟩ := rfl
  rcases exTetra_cuts (w := w) hw with h | h | h <;> rw [e, h] <;> simp [r1, r3, rd_zero]

theorem exFillPlane : FillPlaneF ⟨1, 0, 0⟩ ⟨1, 0, 0⟩ :=
  ⟨⟨isF_one, isF_zero, isF_zero⟩, by norm_num, by norm_num, ⟨isF_one, isF_zero, isF_zero⟩, by norm_num, by norm_num, rfl, by norm_num⟩

/-- the tetrahedron cut at height 1 and filled on the plane `x = 1` in `float64`: the point `(1, 0.5)` is on the fill line -/
example (S : Sorter) (sett : Settings B64) : ∃ (cs : List (List R3)) (segs : List (R3 × R3)),
    joinPaths3AndMinimize S (sectionPaths (levelF 1) (fmesh exTetra).triangles) = .ok (cs.map fpath) ∧
    fillLayer S (planesF [(⟨1, 0, 0⟩, ⟨1, 0, 0⟩)]) (planesF [(⟨1, 0, 0⟩, ⟨1, 0, 0⟩)]) sett 5 2 ⟨2, zUp.f64v, cs.map fpath, [], [], []⟩ =
      .ok ⟨2, zUp.f64v, cs.map fpath, [], [], segs.map fline⟩ ∧
    ∃ s ∈ segs, OnLineF s ⟨1, 1 / 2, 1⟩ ∨ OnLineF s.swap ⟨1, 1 / 2, 1⟩ := by
  obtain ⟨cs, h1, hb⟩ := C101_bound S exTetra 1 exTetra_ok.1 exTetra_ok.2.1 exTetra_safe1 _ (.refl _)
  obtain ⟨segs, k1, lines, l, k2, k3, -, -, k4⟩ := C102_fill S exTetra 1 exTetra_safe1 cs hb sett [(⟨1, 0, 0⟩, ⟨1, 0, 0⟩)] [(⟨1, 0, 0⟩, ⟨1, 0, 0⟩)]
    (by intro f hf; simp at hf; subst hf; exact exFillPlane) 5 2 ⟨2, zUp.f64v, cs.map fpath, [], [], []⟩ rfl rfl rfl
  refine ⟨cs, segs, h1, k1, ?_⟩
  rw [ite_self] at k2 k4
  have hcor : ∀ c ∈ cs, ∀ w ∈ c, w = ⟨0, 0, 1⟩ ∨ w = ⟨3, 0, 1⟩ ∨ w = ⟨0, 3, 1⟩ := by
    intro c hc w hw
    obtain ⟨a, ha, rfl⟩ := (hb.1 c hc).2.2 w hw
    exact exTetra_stored ha
  have hm := k4 (⟨1, 0, 0⟩, ⟨1, 0, 0⟩) (by simp) 1 (by norm_num) le_rfl (by
    intro c hc w hw
    rcases hcor c hc w hw with rfl | rfl | rfl <;> norm_num [R3.height, R3.dot])
  obtain ⟨s, hs, ho⟩ := (hm ⟨1, 1 / 2, 1⟩ rfl (by norm_num [R3.height, R3.dot]) (by
    intro c hc q hq t t0 t1
    rcases hcor c hc _ (mem_sides hq).1 with e1 | e1 | e1 <;> rcases hcor c hc _ (mem_sides hq).2 with e2 | e2 | e2 <;> rw [e1, e2] <;>
      norm_num [R3.distSq2] <;> nlinarith [sq_nonneg (t - 1 / 2), sq_nonneg t]) exTetra_material.1 exTetra_thin).1 exTetra_material.2.2.1
  have hsl : s ∈ l := k2.mem_iff.2 (by simpa using hs)
  obtain ⟨u, hu, hr⟩ := forall₂_mem_right k3 hsl
  refine ⟨u, hu, ?_⟩
  rcases hr with rfl | rfl
  · exact Or.inl ho
  · exact Or.inr ho

end Goosli
