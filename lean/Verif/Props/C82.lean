import Verif.Props.C77
import Verif.Props.C81
import Mathlib.Topology.Compactness.Compact
import Mathlib.Topology.Order.Compact
import Mathlib.Topology.Instances.Real.Lemmas
import Mathlib.Order.Filter.Finite
/-!
# C82: one contour inside another
-/
set_option autoImplicit false
namespace Goosli
open Flt Topology

/-! ## Specification -/

/-- seen from above, every point of the contour `ps` (not only its corners) is inside the contour `ws` and none is on it -/
def RunsInside (ps ws : List R3) : Prop := ∀ x, OnContour x ps → ¬ OnContour x ws ∧ Within x ws

/-! ## Proofs -/

/-- moving along the ray without meeting the contour does not change what the ray meets -/
theorem rayHits_move (a d : R3) (r : ℝ) (hr : 0 ≤ r) (ws : List R3)
    (hseg : ∀ s : ℝ, 0 ≤ s → s ≤ r → ¬ OnContour (a + s • d) ws) (q : R3 × R3) (hq : q ∈ sides ws) :
    RayHits a d q ↔ RayHits (a + r • d) d q := by
  constructor
  · rintro ⟨s, t, h0, ht0, ht1, hx, hy⟩
    rcases le_or_gt s r with h | h
    · exact absurd ⟨q, hq, t, ht0, ht1, by simpa using hx, by simpa using hy⟩ (hseg s h0 h)
    · refine ⟨s - r, t, by linarith, ht0, ht1, ?_, ?_⟩
      · rw [hx]; simp; ring
      · rw [hy]; simp; ring
  · rintro ⟨s, t, h0, ht0, ht1, hx, hy⟩
    refine ⟨s + r, t, by linarith, ht0, ht1, ?_, ?_⟩
    · rw [hx]; simp; ring
    · rw [hy]; simp; ring

theorem generic_move (a d : R3) (r : ℝ) (ws : List R3) (h : Generic a d ws) : Generic (a + r • d) d ws := by
  intro w hw
  have := h w hw
  have e : d.cross2 (w - (a + r • d)) = d.cross2 (w - a) := by simp [R3.cross2]; ring
  rw [e]; exact this

open Classical in
/-- along a line that avoids the corners -/
theorem within_along (a d : R3) (r : ℝ) (hr : 0 ≤ r) (ws : List R3) (h2 : 2 ≤ ws.length) (hc : ws.head? = ws.getLast?)
    (hg : Generic a d ws) (hseg : ∀ s : ℝ, 0 ≤ s → s ≤ r → ¬ OnContour (a + s • d) ws) :
    Within a ws ↔ Within (a + r • d) ws := by
  have ha : ¬ OnContour a ws := by have := hseg 0 le_rfl hr; rwa [show a + (0 : ℝ) • d = a by apply R3.ext <;> simp] at this
  rw [C77_ray a d ws h2 hc ha hg, C77_ray (a + r • d) d ws h2 hc (hseg r hr le_rfl) (generic_move a d r ws hg)]
  unfold OddHits
  have e : (sides ws).countP (fun q => decide (RayHits a d q)) = (sides ws).countP fun q => decide (RayHits (a + r • d) d q) :=
    List.countP_congr fun q hq => by simp only [decide_eq_true_eq]; exact rayHits_move a d r hr ws hseg q hq
  rw [e]

/-- a segment that avoids the contour still does after a small shift of its end -/
theorem avoid_near (a b e : R3) (ws : List R3) (h : ∀ s : ℝ, 0 ≤ s → s ≤ 1 → ¬ OnContour (a + s • (b - a)) ws) :
    ∀ᶠ ε in 𝓝 (0 : ℝ), ∀ s : ℝ, 0 ≤ s → s ≤ 1 → ¬ OnContour (a + s • (b + ε • e - a)) ws := by
  have key : ∀ q ∈ sides ws, ∀ᶠ ε in 𝓝 (0 : ℝ), ∀ y ∈ Set.Icc (0 : ℝ) 1 ×ˢ Set.Icc (0 : ℝ) 1,
      ¬ (q.1.x + y.2 * (q.2.x - q.1.x) = (a + y.1 • (b + ε • e - a)).x ∧ q.1.y + y.2 * (q.2.y - q.1.y) = (a + y.1 • (b + ε • e - a)).y) := by
    intro q hq
    apply IsCompact.eventually_forall_of_forall_eventually (isCompact_Icc.prod isCompact_Icc)
    rintro ⟨s, t⟩ ⟨⟨hs0, hs1⟩, ⟨ht0, ht1⟩⟩
    have hopen : IsOpen {z : ℝ × ℝ × ℝ | ¬ (q.1.x + z.2.2 * (q.2.x - q.1.x) = (a + z.2.1 • (b + z.1 • e - a)).x ∧
        q.1.y + z.2.2 * (q.2.y - q.1.y) = (a + z.2.1 • (b + z.1 • e - a)).y)} := by
      rw [← isClosed_compl_iff]
      have : {z : ℝ × ℝ × ℝ | ¬ (q.1.x + z.2.2 * (q.2.x - q.1.x) = (a + z.2.1 • (b + z.1 • e - a)).x ∧
        q.1.y + z.2.2 * (q.2.y - q.1.y) = (a + z.2.1 • (b + z.1 • e - a)).y)}ᶜ =
        {z : ℝ × ℝ × ℝ | q.1.x + z.2.2 * (q.2.x - q.1.x) = a.x + z.2.1 * (b.x + z.1 * e.x - a.x)} ∩
        {z : ℝ × ℝ × ℝ | q.1.y + z.2.2 * (q.2.y - q.1.y) = a.y + z.2.1 * (b.y + z.1 * e.y - a.y)} := by
        ext z; simp
      rw [this]
      exact (isClosed_eq (by fun_prop) (by fun_prop)).inter (isClosed_eq (by fun_prop) (by fun_prop))
    refine hopen.mem_nhds ?_
    rintro ⟨hx, hy⟩
    refine h s hs0 hs1 ⟨q, hq, t, ht0, ht1, ?_, ?_⟩
    · simpa using hx
    · simpa using hy
  have all : ∀ᶠ ε in 𝓝 (0 : ℝ), ∀ q ∈ {q | q ∈ sides ws}, ∀ y ∈ Set.Icc (0 : ℝ) 1 ×ˢ Set.Icc (0 : ℝ) 1,
      ¬ (q.1.x + y.2 * (q.2.x - q.1.x) = (a + y.1 • (b + ε • e - a)).x ∧ q.1.y + y.2 * (q.2.y - q.1.y) = (a + y.1 • (b + ε • e - a)).y) :=
    (Filter.eventually_all_finite (List.finite_toSet _)).2 key
  filter_upwards [all] with ε hε s hs0 hs1
  rintro ⟨q, hq, t, ht0, ht1, hx, hy⟩
  exact hε q hq (s, t) ⟨⟨hs0, hs1⟩, ⟨ht0, ht1⟩⟩ ⟨hx, hy⟩

/-- a line through `a` can be turned off the corners -/
theorem generic_near (a b e : R3) (ws : List R3) (he : Generic a e ws) : ∀ᶠ ε in 𝓝[>] (0 : ℝ), Generic a (b + ε • e - a) ws := by
  have key : ∀ w ∈ ws, ∀ᶠ ε in 𝓝[>] (0 : ℝ), (b + ε • e - a).cross2 (w - a) ≠ 0 := by
    intro w hw
    have h1 := he w hw
    have e1 : ∀ ε : ℝ, (b + ε • e - a).cross2 (w - a) = (b - a).cross2 (w - a) + ε * e.cross2 (w - a) := by
      intro ε; simp [R3.cross2]; ring
    by_cases h0 : (b - a).cross2 (w - a) = 0
    · filter_upwards [self_mem_nhdsWithin] with ε hε
      rw [e1, h0, zero_add]
      exact mul_ne_zero (ne_of_gt hε) h1
    · apply Filter.Eventually.filter_mono nhdsWithin_le_nhds
      have hopen : IsOpen {ε : ℝ | (b - a).cross2 (w - a) + ε * e.cross2 (w - a) ≠ 0} := isOpen_ne_fun (by fun_prop) (by fun_prop)
      have := hopen.mem_nhds (x := 0) (by simpa using h0)
      filter_upwards [this] with ε hε
      rw [e1]; exact hε
  have := (Filter.eventually_all_finite (List.finite_toSet ws)).2 key
  exact this

/-- **C82, main lemma.** Seen from above, two points joined by a segment that does not meet a closed contour are both inside it or both
outside. -/
theorem within_segment (a b : R3) (ws : List R3) (h2 : 2 ≤ ws.length) (hc : ws.head? = ws.getLast?)
    (hseg : ∀ s : ℝ, 0 ≤ s → s ≤ 1 → ¬ OnContour (a + s • (b - a)) ws) : Within a ws ↔ Within b ws := by
  have ha : ¬ OnContour a ws := by have := hseg 0 le_rfl zero_le_one; rwa [show a + (0 : ℝ) • (b - a) = a by apply R3.ext <;> simp] at this
  have hb : ¬ OnContour b ws := by
    have := hseg 1 zero_le_one le_rfl
    have e : a + (1 : ℝ) • (b - a) = b := by apply R3.ext <;> simp
    rwa [e] at this
  have hca := corner_ne h2 ha
  have hcb := corner_ne h2 hb
  obtain ⟨e, hea, heb⟩ := exists_generic a ws hca (ws.map fun w => w - b) (by
    intro e he
    obtain ⟨w, hw, rfl⟩ := List.mem_map.1 he
    rcases hcb w hw with h | h
    · left; exact sub_ne_zero.2 h
    · right; exact sub_ne_zero.2 h)
  have heb' : Generic b e ws := fun w hw => heb (w - b) (List.mem_map_of_mem hw)
  -- a small shift of `b`
  have hbe : ∀ᶠ ε in 𝓝 (0 : ℝ), ∀ s : ℝ, 0 ≤ s → s ≤ 1 → ¬ OnContour (b + s • (b + ε • e - b)) ws := by
    apply avoid_near
    intro s _ _
    have : b + s • (b - b) = b := by apply R3.ext <;> simp
    rwa [this]
  have h1 : ∀ᶠ ε in 𝓝[>] (0 : ℝ), _ := (avoid_near a b e ws hseg).filter_mono nhdsWithin_le_nhds
  have h3 : ∀ᶠ ε in 𝓝[>] (0 : ℝ), _ := hbe.filter_mono nhdsWithin_le_nhds
  obtain ⟨ε, hab, hbc, hgen, hpos⟩ := (h1.and (h3.and ((generic_near a b e ws hea).and self_mem_nhdsWithin))).exists
  have hpos : 0 < ε := hpos
  have s1 : Within a ws ↔ Within (a + (1 : ℝ) • (b + ε • e - a)) ws :=
    within_along a (b + ε • e - a) 1 zero_le_one ws h2 hc hgen hab
  have s2 : Within b ws ↔ Within (b + ε • e) ws := by
    refine within_along b e ε hpos.le ws h2 hc heb' fun s hs0 hs1 => ?_
    have := hbc (s / ε) (div_nonneg hs0 hpos.le) ((div_le_one hpos).2 hs1)
    have ee : b + (s / ε) • (b + ε • e - b) = b + s • e := by
      apply R3.ext <;> simp <;> field_simp
    rwa [ee] at this
  have ec : a + (1 : ℝ) • (b + ε • e - a) = b + ε • e := by apply R3.ext <;> simp
  rw [s1, ec, s2]

theorem onContour_xy {x y : R3} {ws : List R3} (hx : x.x = y.x) (hy : x.y = y.y) : OnContour x ws ↔ OnContour y ws := by
  unfold OnContour; rw [hx, hy]

/-- a point of a contour and the first end of its side -/
theorem within_side (ps ws : List R3) (h2 : 2 ≤ ws.length) (hc : ws.head? = ws.getLast?)
    (hd : ∀ x, OnContour x ps → ¬ OnContour x ws) {q : R3 × R3} (hq : q ∈ sides ps) (x : R3) (t : ℝ) (ht0 : 0 ≤ t) (ht1 : t ≤ 1)
    (hx : q.1.x + t * (q.2.x - q.1.x) = x.x) (hy : q.1.y + t * (q.2.y - q.1.y) = x.y) : Within q.1 ws ↔ Within x ws := by
  apply within_segment _ _ _ h2 hc
  intro s hs0 hs1
  apply hd
  refine ⟨q, hq, s * t, mul_nonneg hs0 ht0, ?_, ?_, ?_⟩
  · nlinarith
  · simp only [R3.add_x, R3.smul_x, R3.sub_x, ← hx]; ring
  · simp only [R3.add_y, R3.smul_y, R3.sub_y, ← hy]; ring

theorem within_corners (ws : List R3) (h2 : 2 ≤ ws.length) (hc : ws.head? = ws.getLast?) :
    ∀ ps : List R3, (∀ x, OnContour x ps → ¬ OnContour x ws) → ∀ a ∈ ps, ∀ b ∈ ps, (Within a ws ↔ Within b ws)
  | [], _, a, ha, _, _ => by simp at ha
  | [p], _, a, ha, b, hb => by simp at ha hb; rw [ha, hb]
  | p :: q :: t, hd, a, ha, b, hb => by
    have step : Within p ws ↔ Within q ws :=
      within_side (p :: q :: t) ws h2 hc hd (q := (p, q)) (by simp [sides]) q 1 zero_le_one le_rfl (by simp) (by simp)
    have ih := within_corners ws h2 hc (q :: t) (fun x ⟨r, hr, hx⟩ => hd x ⟨r, by simp [sides] at hr ⊢; right; exact hr, hx⟩)
    have toq : ∀ c ∈ p :: q :: t, (Within c ws ↔ Within q ws) := by
      intro c hcm
      rcases List.mem_cons.1 hcm with rfl | h
      · exact step
      · exact ih c h q (by simp)
    rw [toq a ha, toq b hb]

/-- **C82, all or nothing.** If, seen from above, a contour has no point in common with a closed contour, all its points are inside
the closed contour or all are outside. -/
theorem C82_all_or_nothing (ps ws : List R3) (h2 : 2 ≤ ws.length) (hc : ws.head? = ws.getLast?)
    (hd : ∀ x, OnContour x ps → ¬ OnContour x ws) (x y : R3) (hx : OnContour x ps) (hy : OnContour y ps) :
    Within x ws ↔ Within y ws := by
  obtain ⟨q, hq, t, h0, h1, hqx, hqy⟩ := hx
  obtain ⟨q', hq', t', h0', h1', hqx', hqy'⟩ := hy
  rw [← within_side ps ws h2 hc hd hq x t h0 h1 hqx hqy, ← within_side ps ws h2 hc hd hq' y t' h0' h1' hqx' hqy']
  exact within_corners ws h2 hc ps hd _ (mem_sides hq).1 _ (mem_sides hq').1

/-- the two loops of `IsInside` over the sides -/
theorem sides_meet (ps ws : List R3) (z : ℝ) (hpz : ∀ a ∈ ps, a.z = z) (hwz : ∀ a ∈ ws, a.z = z)
    (hap : ∀ p ∈ sides ps, ∀ q ∈ sides ws, ClearPair p.1 p.2 q.1 q.2) :
    ((adjPairs (ps.map R3.pt)).any fun s => (adjPairs (ws.map R3.pt)).any fun t =>
      (Line.mk s.1 s.2).isIntersectingSegment (Line.mk t.1 t.2)) = true ↔ ∃ x, OnContour x ps ∧ OnContour x ws := by
  rw [adjPairs_sides, adjPairs_sides]
  simp only [List.any_map, List.any_eq_true, Function.comp_def]
  have hiff : ∀ p ∈ sides ps, ∀ q ∈ sides ws, _ := fun p hp q hq =>
    C81_segments_partial p.1 p.2 q.1 q.2 z (hpz _ (mem_sides hp).1) (hpz _ (mem_sides hp).2) (hwz _ (mem_sides hq).1)
      (hwz _ (mem_sides hq).2) (hap p hp q hq)
  constructor
  · rintro ⟨p, hp, q, hq, h⟩
    obtain ⟨w, ⟨u, u0, u1, rfl⟩, ⟨r, r0, r1, hr⟩⟩ := (hiff p hp q hq).1 h
    refine ⟨p.1 + u • (p.2 - p.1), ⟨p, hp, u, u0, u1, by simp, by simp⟩, ⟨q, hq, r, r0, r1, ?_, ?_⟩⟩ <;> rw [hr] <;> simp
  · rintro ⟨x, ⟨p, hp, u, u0, u1, hx, hy⟩, ⟨q, hq, r, r0, r1, hx', hy'⟩⟩
    refine ⟨p, hp, q, hq, (hiff p hp q hq).2 ⟨p.1 + u • (p.2 - p.1), ⟨u, u0, u1, rfl⟩, ⟨r, r0, r1, ?_⟩⟩⟩
    apply R3.ext
    · simp [hx', hx]
    · simp [hy', hy]
    · simp [hpz _ (mem_sides hp).1, hpz _ (mem_sides hp).2, hwz _ (mem_sides hq).1, hwz _ (mem_sides hq).2]

theorem onContour_mem {ps : List R3} (h2 : 2 ≤ ps.length) {a : R3} (ha : a ∈ ps) : OnContour a ps := by
  by_contra h
  rcases corner_ne h2 h a ha with h | h <;> exact h rfl

/-- **C82.** For two level contours at the same height, the second closed and with at least three sides, `p.IsInside(p1)` reports exactly
whether every point of `p` is inside `p1`, if the sides are in clear position, no corner of `p` is on the line of the first side of `p1`
and no corner of `p1` is opposite to a corner of `p` square to this line. -/
theorem C82_isInside_partial (ps : List R3) (u v : R3) (t : List R3) (z : ℝ) (hp2 : 2 ≤ ps.length) (hpz : ∀ a ∈ ps, a.z = z)
    (ht : 2 ≤ t.length) (hz : ∀ w ∈ u :: v :: t, w.z = z) (hc : (u :: v :: t).head? = (u :: v :: t).getLast?)
    (hap : ∀ p ∈ sides ps, ∀ q ∈ sides (u :: v :: t), ClearPair p.1 p.2 q.1 q.2)
    (hg : ∀ a ∈ ps, ∀ w ∈ u :: v :: t, (w - a).dot (v - u) ≠ 0) (hl : ∀ a ∈ ps, (v - u).cross2 (u - a) ≠ 0) :
    (Path.mk (ps.map R3.pt)).isInside ⟨(u :: v :: t).map R3.pt⟩ = true ↔ RunsInside ps (u :: v :: t) := by
  set ws := u :: v :: t with hws
  have h2 : 2 ≤ ws.length := by simp [hws]
  have inside_iff : ∀ a ∈ ps, ¬ OnContour a ws → (a.pt.inside ⟨ws.map R3.pt⟩ = true ↔ Within a ws) := by
    intro a ha hon
    refine C77_inside_partial a u v t z ht hz hc hon (hg a ha) (hl a ha) ?_
    intro q _ i _ h
    rw [hpz a ha]; simpa using h
  unfold Path.isInside
  have hm := sides_meet ps ws z hpz hz hap
  by_cases hx : ∃ x, OnContour x ps ∧ OnContour x ws
  · rw [if_pos (hm.2 hx)]
    simp only [Bool.false_eq_true, false_iff]
    intro h
    obtain ⟨x, h1, h2⟩ := hx
    exact (h x h1).1 h2
  · rw [if_neg (fun h => hx (hm.1 h))]
    have hd : ∀ x, OnContour x ps → ¬ OnContour x ws := fun x h1 h2 => hx ⟨x, h1, h2⟩
    simp only [List.any_map, List.any_eq_true, Function.comp_def]
    constructor
    · rintro ⟨a, ha, hin⟩ x hxp
      have hac := onContour_mem hp2 ha
      exact ⟨hd x hxp, (C82_all_or_nothing ps ws h2 hc hd a x hac hxp).1 ((inside_iff a ha (hd a hac)).1 hin)⟩
    · intro h
      obtain ⟨a, ha⟩ : ∃ a, a ∈ ps := List.exists_mem_of_length_pos (by omega)
      have hac := onContour_mem hp2 ha
      exact ⟨a, ha, (inside_iff a ha (hd a hac)).2 (h a hac).2⟩

/-! ## The property is false for very small contours -/

/-- a square of side `d` with its first corner at `(x, x)` -/
def squareAt (d x : ℝ) : List R3 := [⟨x, x, 0⟩, ⟨x + d, x, 0⟩, ⟨x + d, x + d, 0⟩, ⟨x, x + d, 0⟩, ⟨x, x, 0⟩]

theorem squareAt_sides (d x : ℝ) : sides (squareAt d x) =
    [(⟨x, x, 0⟩, ⟨x + d, x, 0⟩), (⟨x + d, x, 0⟩, ⟨x + d, x + d, 0⟩), (⟨x + d, x + d, 0⟩, ⟨x, x + d, 0⟩), (⟨x, x + d, 0⟩, ⟨x, x, 0⟩)] := rfl

theorem orient_small (r p q : R3) (m : ℝ) (hr : (0 ≤ r.x ∧ r.x ≤ m) ∧ 0 ≤ r.y ∧ r.y ≤ m) (hp : (0 ≤ p.x ∧ p.x ≤ m) ∧ 0 ≤ p.y ∧ p.y ≤ m)
    (hq : (0 ≤ q.x ∧ q.x ≤ m) ∧ 0 ≤ q.y ∧ q.y ≤ m) (h : 2 * (m * m) < tol) : |orientVal r p q| < tol := by
  have a : ∀ x y : ℝ, (0 ≤ x ∧ x ≤ m) → (0 ≤ y ∧ y ≤ m) → |x - y| ≤ m := by
    rintro x y ⟨h1, h2⟩ ⟨h3, h4⟩; rw [abs_le]; constructor <;> linarith
  have m0 : 0 ≤ m := hr.1.1.trans hr.1.2
  have b1 : |(q.y - p.y) * (r.x - q.x)| ≤ m * m := by
    rw [abs_mul]; exact mul_le_mul (a _ _ hq.2 hp.2) (a _ _ hr.1 hq.1) (abs_nonneg _) m0
  have b2 : |(q.x - p.x) * (r.y - q.y)| ≤ m * m := by
    rw [abs_mul]; exact mul_le_mul (a _ _ hq.1 hp.1) (a _ _ hr.2 hq.2) (abs_nonneg _) m0
  have := abs_sub ((q.y - p.y) * (r.x - q.x)) ((q.x - p.x) * (r.y - q.y))
  unfold orientVal
  linarith

/-- two segments along different axes, or along parallel lines -/
theorem not_inBox_x {p q x : R3} (h : (x.x < p.x ∧ x.x < q.x) ∨ (p.x < x.x ∧ q.x < x.x)) : ¬ InBox p q x := by
  rintro ⟨⟨h1, h2⟩, _⟩
  rcases h with h | h
  · exact absurd h1 (not_le.2 (lt_min h.1 h.2))
  · exact absurd h2 (not_le.2 (max_lt h.1 h.2))

theorem not_inBox_y {p q x : R3} (h : (x.y < p.y ∧ x.y < q.y) ∨ (p.y < x.y ∧ q.y < x.y)) : ¬ InBox p q x := by
  rintro ⟨_, ⟨h1, h2⟩, _⟩
  rcases h with h | h
  · exact absurd h1 (not_le.2 (lt_min h.1 h.2))
  · exact absurd h2 (not_le.2 (max_lt h.1 h.2))

set_option maxHeartbeats 1000000 in
theorem squares_missed (d : ℝ) (h0 : 0 < d) (h1 : d ≤ 1 / 4000) : ∀ p ∈ sides (squareAt d (d / 2)), ∀ q ∈ sides (squareAt d 0),
    (Line.mk p.1.pt p.2.pt).isIntersectingSegment (Line.mk q.1.pt q.2.pt) = false := by
  rw [squareAt_sides, squareAt_sides]
  have hd : 2 * ((2 * d) * (2 * d)) < tol := by unfold tol; nlinarith
  intro p hp q hq
  have cp : ∀ c, c = p.1 ∨ c = p.2 → (0 ≤ c.x ∧ c.x ≤ 2 * d) ∧ 0 ≤ c.y ∧ c.y ≤ 2 * d := by
    simp only [List.mem_cons, List.not_mem_nil, or_false] at hp
    rcases hp with rfl | rfl | rfl | rfl <;> rintro c (rfl | rfl) <;> refine ⟨⟨?_, ?_⟩, ?_, ?_⟩ <;> dsimp only <;> linarith
  have cq : ∀ c, c = q.1 ∨ c = q.2 → (0 ≤ c.x ∧ c.x ≤ 2 * d) ∧ 0 ≤ c.y ∧ c.y ≤ 2 * d := by
    simp only [List.mem_cons, List.not_mem_nil, or_false] at hq
    rcases hq with rfl | rfl | rfl | rfl <;> rintro c (rfl | rfl) <;> refine ⟨⟨?_, ?_⟩, ?_, ?_⟩ <;> dsimp only <;> linarith
  have cp1 := cp p.1 (Or.inl rfl)
  have cp2 := cp p.2 (Or.inr rfl)
  have cq1 := cq q.1 (Or.inl rfl)
  have cq2 := cq q.2 (Or.inr rfl)
  apply not_found _ _ _ _ (orient_small _ _ _ _ cq1 cp1 cp2 hd) (orient_small _ _ _ _ cq2 cp1 cp2 hd) (orient_small _ _ _ _ cp1 cq1 cq2 hd)
    (orient_small _ _ _ _ cp2 cq1 cq2 hd)
  all_goals
    clear cp cq cp1 cp2 cq1 cq2
    simp only [List.mem_cons, List.not_mem_nil, or_false] at hp hq
    rcases hp with rfl | rfl | rfl | rfl <;> rcases hq with rfl | rfl | rfl | rfl <;> first
      | exact not_inBox_x (Or.inl ⟨by dsimp only; linarith, by dsimp only; linarith⟩)
      | exact not_inBox_x (Or.inr ⟨by dsimp only; linarith, by dsimp only; linarith⟩)
      | exact not_inBox_y (Or.inl ⟨by dsimp only; linarith, by dsimp only; linarith⟩)
      | exact not_inBox_y (Or.inr ⟨by dsimp only; linarith, by dsimp only; linarith⟩)

/-- the middle of the square is inside -/
theorem squareAt_within (d : ℝ) (h0 : 0 < d) : Within ⟨d / 2, d / 2, 0⟩ (squareAt d 0) := by
  refine ⟨⟨1, 0, 0⟩, ?_, ?_⟩
  · intro w hw
    simp only [squareAt, List.mem_cons, List.not_mem_nil, or_false] at hw
    rcases hw with rfl | rfl | rfl | rfl | rfl <;> simp [R3.cross2] <;> linarith
  · unfold OddHits
    rw [squareAt_sides]
    simp only [List.countP_cons, List.countP_nil, decide_eq_true_eq]
    have r1 : ¬ RayHits ⟨d / 2, d / 2, 0⟩ ⟨1, 0, 0⟩ (⟨0, 0, 0⟩, ⟨0 + d, 0, 0⟩) := by
      rintro ⟨s, t, hs, ht0, ht1, hx, hy⟩; simp at hx hy; linarith
    have r2 : RayHits ⟨d / 2, d / 2, 0⟩ ⟨1, 0, 0⟩ (⟨0 + d, 0, 0⟩, ⟨0 + d, 0 + d, 0⟩) :=
      ⟨d / 2, 1 / 2, by linarith, by norm_num, by norm_num, by simp, by simp; ring⟩
    have r3 : ¬ RayHits ⟨d / 2, d / 2, 0⟩ ⟨1, 0, 0⟩ (⟨0 + d, 0 + d, 0⟩, ⟨0, 0 + d, 0⟩) := by
      rintro ⟨s, t, hs, ht0, ht1, hx, hy⟩; simp at hx hy; linarith
    have r4 : ¬ RayHits ⟨d / 2, d / 2, 0⟩ ⟨1, 0, 0⟩ (⟨0, 0 + d, 0⟩, ⟨0, 0, 0⟩) := by
      rintro ⟨s, t, hs, ht0, ht1, hx, hy⟩; simp at hx hy; linarith
    rw [if_neg (by simpa using r4), if_neg (by simpa using r3), if_pos (by simpa using r2), if_neg (by simpa using r1)]

/-- **C82, negation.** A square of a side up to a quarter of a thousandth that is shifted by half a side along both axes sticks out of the
square it came from and crosses its sides, but `IsInside` says it is inside. -/
theorem C82_violated (d : ℝ) (h0 : 0 < d) (h1 : d ≤ 1 / 4000) :
    (Path.mk ((squareAt d (d / 2)).map R3.pt)).isInside ⟨(squareAt d 0).map R3.pt⟩ = true ∧
      ∃ x, OnContour x (squareAt d (d / 2)) ∧ OnContour x (squareAt d 0) := by
  constructor
  · unfold Path.isInside
    rw [if_neg]
    · have hin : (R3.mk (d / 2) (d / 2) 0).pt.inside ⟨(squareAt d 0).map R3.pt⟩ = true := by
        refine (C77_inside_partial ⟨d / 2, d / 2, 0⟩ ⟨0, 0, 0⟩ ⟨0 + d, 0, 0⟩ [⟨0 + d, 0 + d, 0⟩, ⟨0, 0 + d, 0⟩, ⟨0, 0, 0⟩] 0 (by simp)
          (by simp) rfl ?_ ?_ ?_ ?_).2 (squareAt_within d h0)
        · rintro ⟨q, hq, t, t0, t1, hx, hy⟩
          simp [sides] at hq
          rcases hq with rfl | rfl | rfl | rfl <;> simp at hx hy <;> linarith
        · intro w hw
          simp only [List.mem_cons, List.not_mem_nil, or_false] at hw
          rcases hw with rfl | rfl | rfl | rfl | rfl <;> simp [R3.dot, h0.ne'] <;> linarith
        · simp [R3.cross2, h0.ne']
        · intro q _ i _ h; simpa using h
      simp only [squareAt, List.map_cons, List.map_nil, List.any_cons] at hin ⊢
      rw [hin]; rfl
    · rw [adjPairs_sides, adjPairs_sides]
      simp only [List.any_map, List.any_eq_true, Function.comp_def, not_exists, not_and, Bool.not_eq_true]
      exact squares_missed d h0 h1
  · refine ⟨⟨d, d / 2, 0⟩, ⟨(⟨d / 2, d / 2, 0⟩, ⟨d / 2 + d, d / 2, 0⟩), by simp [squareAt_sides], 1 / 2, by norm_num, by norm_num, ?_, ?_⟩,
      ⟨(⟨0 + d, 0, 0⟩, ⟨0 + d, 0 + d, 0⟩), by simp [squareAt_sides], 1 / 2, by norm_num, by norm_num, ?_, ?_⟩⟩ <;> simp <;> ring

/-! ## Non-vacuity -/

/-- a triangle inside a square -/
example : (Path.mk (([⟨-1, -2, 0⟩, ⟨2, -1, 0⟩, ⟨1, 2, 0⟩, ⟨-1, -2, 0⟩] : List R3).map R3.pt)).isInside ⟨(box 4).map R3.pt⟩ = true := by
  refine (C82_isInside_partial _ ⟨-4, -4, 0⟩ ⟨4, -4, 0⟩ [⟨4, 4, 0⟩, ⟨-4, 4, 0⟩, ⟨-4, -4, 0⟩] 0 (by simp) (by simp) (by simp) (by simp) rfl
    ?_ ?_ ?_).2 ?_
  · intro p hp q hq
    simp [sides] at hp hq
    rcases hp with rfl | rfl | rfl <;> rcases hq with rfl | rfl | rfl | rfl <;> constructor <;> right <;> simp only [orientVal, tol] <;>
      norm_num [abs_of_pos, abs_of_neg]
  · intro a ha w hw
    simp only [List.mem_cons, List.not_mem_nil, or_false] at ha hw
    rcases ha with rfl | rfl | rfl | rfl <;> rcases hw with rfl | rfl | rfl | rfl | rfl <;> simp [R3.dot] <;> norm_num
  · intro a ha
    simp only [List.mem_cons, List.not_mem_nil, or_false] at ha
    rcases ha with rfl | rfl | rfl | rfl <;> simp [R3.cross2] <;> norm_num
  · have off : ∀ x : R3, |x.x| < 4 → |x.y| < 4 → ¬ OnContour x (box 4) := by
      rintro x hx hy ⟨q, hq, t, t0, t1, h1, h2⟩
      rw [abs_lt] at hx hy
      simp [sides, box] at hq
      rcases hq with rfl | rfl | rfl | rfl <;> simp at h1 h2 <;> linarith
    have near : ∀ x, OnContour x [⟨-1, -2, 0⟩, ⟨2, -1, 0⟩, ⟨1, 2, 0⟩, ⟨-1, -2, 0⟩] → |x.x| < 4 ∧ |x.y| < 4 := by
      rintro x ⟨q, hq, t, t0, t1, h1, h2⟩
      simp [sides] at hq
      rcases hq with rfl | rfl | rfl <;> simp at h1 h2 <;> rw [abs_lt, abs_lt] <;> refine ⟨⟨?_, ?_⟩, ?_, ?_⟩ <;> linarith
    intro x hx
    obtain ⟨nx, ny⟩ := near x hx
    refine ⟨off x nx ny, (within_segment ⟨0, 0, 0⟩ x (box 4) (by simp [box]) rfl fun s s0 s1 => ?_).1 (box_within 4 0 (by norm_num))⟩
    apply off
    · simp [abs_mul, abs_of_nonneg s0]; nlinarith [abs_nonneg x.x]
    · simp [abs_mul, abs_of_nonneg s0]; nlinarith [abs_nonneg x.y]

end Goosli
