import Verif.Proofs.Slice
import Verif.Props.C08
import Verif.Props.C25
import Verif.Props.C26
/-!
# The sweep of `SliceByVector` on real meshes
-/
set_option linter.unusedSectionVars false
namespace Goosli
open Flt

/-- lowest projection of a triangle -/
noncomputable def RTri.lo (t : RTri) (d : R3) : ℝ := min (t.a.dot d) (min (t.b.dot d) (t.c.dot d))
/-- highest projection of a triangle -/
noncomputable def RTri.hi (t : RTri) (d : R3) : ℝ := max (t.a.dot d) (max (t.b.dot d) (t.c.dot d))

theorem minZ_tri (t : RTri) (d : R3) : t.tri.minZ d.vec = XR.fin (t.lo d) := by
  simp [Triangle.minZ, RTri.tri, RTri.lo]

theorem maxZ_tri (t : RTri) (d : R3) : t.tri.maxZ d.vec = XR.fin (t.hi d) := by
  simp [Triangle.maxZ, RTri.tri, RTri.hi]

/-- a triangle with finite vertices and the normal the constructors store -/
def IsR (t : Triangle XR) : Prop := ∃ r : RTri, t = r.tri

theorem crosses_between {P N a b w : R3} (h : crosses P N a b w) :
    min (a.dot N) (b.dot N) ≤ P.dot N ∧ P.dot N ≤ max (a.dot N) (b.dot N) := by
  obtain ⟨_, ⟨t, h0, h1, rfl⟩, hp⟩ := h
  unfold R3.onPlane at hp
  rw [R3.height_eq] at hp
  have e : (a + t • (b - a)).dot N = a.dot N + t * (b.dot N - a.dot N) := by simp [R3.dot]; ring
  rw [e] at hp
  rcases le_total (a.dot N) (b.dot N) with c | c
  · rw [min_eq_left c, max_eq_right c]; constructor <;> nlinarith
  · rw [min_eq_right c, max_eq_left c]; constructor <;> nlinarith

/-- a plane that misses the interval of a triangle gives no segment -/
theorem intersectTriangle_none (P N : R3) (r : RTri) (h : P.dot N < r.lo N ∨ r.hi N < P.dot N) :
    (Plane.mk P.pt N.vec).intersectTriangle r.tri = none := by
  have key : (Plane.mk P.pt N.vec).chordEnds r.tri = none := by
    by_contra hc
    obtain ⟨⟨x, y⟩, hxy⟩ := Option.ne_none_iff_exists'.1 hc
    obtain ⟨u, v, _, _, _, hcase⟩ := chordEnds_spec P N r.a r.b r.c _ x y hxy
    have la : r.lo N ≤ r.a.dot N := min_le_left _ _
    have lb : r.lo N ≤ r.b.dot N := (min_le_right _ _).trans (min_le_left _ _)
    have lc : r.lo N ≤ r.c.dot N := (min_le_right _ _).trans (min_le_right _ _)
    have ha : r.a.dot N ≤ r.hi N := le_max_left _ _
    have hb : r.b.dot N ≤ r.hi N := (le_max_left _ _).trans (le_max_right _ _)
    have hc : r.c.dot N ≤ r.hi N := (le_max_right _ _).trans (le_max_right _ _)
    have : ∃ s t w, crosses P N s t w ∧ r.lo N ≤ s.dot N ∧ r.lo N ≤ t.dot N ∧ s.dot N ≤ r.hi N ∧ t.dot N ≤ r.hi N := by
      rcases hcase with ⟨h1, _⟩ | ⟨h1, _⟩ | ⟨h1, _⟩
      · exact ⟨_, _, _, h1, la, lb, ha, hb⟩
      · exact ⟨_, _, _, h1, la, lb, ha, hb⟩
      · exact ⟨_, _, _, h1, lb, lc, hb, hc⟩
    obtain ⟨s, t, w, hw, h1, h2, h3, h4⟩ := this
    obtain ⟨b1, b2⟩ := crosses_between hw
    have := le_min h1 h2
    have := max_le h3 h4
    rcases h with h | h <;> linarith
  unfold Plane.intersectTriangle
  rw [key]

/-- the segments of a plane with a list of triangles, one path per segment -/
def sectionPaths {α : Type} [Flt α] (pl : Plane α) (ts : List (Triangle α)) : List (Path α) :=
  ts.filterMap fun t => (pl.intersectTriangle t).map fun l => ⟨[l.p1, l.p2]⟩

theorem sectionPaths_perm {α : Type} [Flt α] (pl : Plane α) {ts ts' : List (Triangle α)} (h : ts.Perm ts') :
    (sectionPaths pl ts).Perm (sectionPaths pl ts') := h.filterMap _

theorem sectionPaths_none {α : Type} [Flt α] (pl : Plane α) (ts : List (Triangle α)) (h : ∀ t ∈ ts, pl.intersectTriangle t = none) :
    sectionPaths pl ts = [] := by
  unfold sectionPaths
  rw [List.filterMap_eq_nil_iff]
  intro t ht
  rw [h t ht]; rfl

theorem takeWhile_append_dropWhile' {β : Type} (p : β → Bool) (l : List β) : l = l.takeWhile p ++ l.dropWhile p :=
  (List.takeWhile_append_dropWhile).symm

/-- ordered by lowest projection -/
def MinSorted (u : R3) (l : List (Triangle XR)) : Prop :=
  l.Pairwise fun a b => ∀ r s : RTri, a = r.tri → b = s.tri → r.lo u ≤ s.lo u

theorem sweep_spec (u sh : R3) (hsh : 0 ≤ sh.dot u) (all : List (Triangle XR)) (hall : ∀ t ∈ all, IsR t) :
    ∀ (k i : Nat) (P : R3) (act rest dropped pre srt : List (Triangle XR)),
      all.Perm (dropped ++ act ++ rest) → rest = pre ++ srt →
      (∀ t ∈ dropped, ∀ r : RTri, t = r.tri → r.hi u < P.dot u) →
      (∀ t ∈ pre, ∀ r : RTri, t = r.tri → r.lo u ≤ P.dot u) → MinSorted u srt →
      ∀ (m : Nat) (j : Job XR), (sweep u.vec sh.vec k i P.pt act rest)[m]? = some j →
        j.plane = ⟨(P + (m : ℝ) • sh).pt, u.vec⟩ ∧ j.order = i + m ∧ (jobPaths j).Perm (sectionPaths j.plane all) := by
  intro k
  induction k with
  | zero => intro i P act rest dropped pre srt _ _ _ _ _ m j hj; simp [sweep] at hj
  | succ k ih =>
    intro i P act rest dropped pre srt hp hrest hd hpre hsort m j hj
    set z : XR := P.pt.toVector.dot u.vec with hz
    have hz' : z = XR.fin (P.dot u) := by rw [hz, toVector_pt, dot_vec]
    set act' := act.filter (fun t => z ≤? t.maxZ u.vec) ++ rest.takeWhile (fun t => t.minZ u.vec ≤? z) with hact
    set rest' := rest.dropWhile (fun t => t.minZ u.vec ≤? z) with hrest'
    set dropped' := dropped ++ act.filter (fun t => !(z ≤? t.maxZ u.vec)) with hdr
    have hsplit : all.Perm (dropped' ++ act' ++ rest') := by
      refine hp.trans ?_
      classical
      rw [List.perm_iff_count]
      intro x
      have h1 := (List.filter_append_perm (fun t => z ≤? t.maxZ u.vec) act).count_eq x
      have h2 : List.count x rest = List.count x (rest.takeWhile (fun t => t.minZ u.vec ≤? z)) + List.count x rest' := by
        conv_lhs => rw [takeWhile_append_dropWhile' (fun t => t.minZ u.vec ≤? z) rest]
        rw [List.count_append]
      rw [hdr, hact]
      simp only [List.count_append] at h1 h2 ⊢
      omega
    have hmem : ∀ t ∈ dropped' ++ act' ++ rest', IsR t := fun t ht => hall t (hsplit.mem_iff.2 ht)
    have hd' : ∀ t ∈ dropped', ∀ r : RTri, t = r.tri → r.hi u < P.dot u := by
      intro t ht r hr
      rw [hdr, List.mem_append] at ht
      rcases ht with ht | ht
      · exact hd t ht r hr
      · have := (List.mem_filter.1 ht).2
        rw [hr, maxZ_tri, hz'] at this
        simpa using this
    have hdw : rest' = srt.dropWhile (fun t => t.minZ u.vec ≤? z) := by
      rw [hrest', hrest]
      have hpre' : ∀ t ∈ pre, (t.minZ u.vec ≤? z) = true := by
        intro t ht
        obtain ⟨r, hr⟩ := hall t (hp.mem_iff.2 (by rw [hrest]; simp [ht]))
        rw [hr, minZ_tri, hz']
        simpa using hpre t ht r hr
      rw [List.dropWhile_append_of_pos hpre']
    have hsrt' : MinSorted u rest' := by rw [hdw]; exact hsort.sublist (List.dropWhile_sublist _)
    have hrz : ∀ t ∈ rest', ∀ r : RTri, t = r.tri → P.dot u < r.lo u := by
      intro t ht r hr
      have hin : ∀ t ∈ srt, IsR t := fun t ht => hall t (hp.mem_iff.2 (by rw [hrest]; simp [ht]))
      have : ∀ (l : List (Triangle XR)), (∀ t ∈ l, IsR t) → MinSorted u l →
          ∀ x ∈ l.dropWhile (fun t => t.minZ u.vec ≤? z), (x.minZ u.vec ≤? z) = false := by
        intro l
        induction l with
        | nil => intro _ _; simp
        | cons a t ih =>
          intro hl hs x hx
          rw [MinSorted, List.pairwise_cons] at hs
          by_cases c : (a.minZ u.vec ≤? z) = true
          · rw [List.dropWhile_cons_of_pos (p := fun t : Triangle XR => t.minZ u.vec ≤? z) c] at hx
            exact ih (fun t ht => hl t (by simp [ht])) hs.2 x hx
          · rw [List.dropWhile_cons_of_neg (p := fun t : Triangle XR => t.minZ u.vec ≤? z) c] at hx
            rcases List.mem_cons.1 hx with rfl | hx
            · simpa using c
            · obtain ⟨ra, hra⟩ := hl a (by simp)
              obtain ⟨rx, hrx⟩ := hl x (by simp [hx])
              have hle := hs.1 x hx ra rx hra hrx
              rw [hra, minZ_tri, hz'] at c
              rw [hrx, minZ_tri, hz']
              simp at c ⊢
              linarith
      have h2 := this srt hin hsort t (by rw [← hdw]; exact ht)
      rw [hr, minZ_tri, hz'] at h2
      simpa using h2
    have hstep : sweep u.vec sh.vec (k + 1) i P.pt act rest =
        ⟨i, ⟨P.pt, u.vec⟩, act'⟩ :: sweep u.vec sh.vec k (i + 1) (P + sh).pt act' rest' := by
      show _ :: sweep u.vec sh.vec k (i + 1) (P.pt.shift sh.vec) _ _ = _
      rw [shift_pt]
      rfl
    rw [hstep] at hj
    cases m with
    | zero =>
      simp only [List.getElem?_cons_zero, Option.some.injEq] at hj
      subst hj
      have e0 : P + ((0 : Nat) : ℝ) • sh = P := by apply R3.ext <;> simp
      refine ⟨by rw [e0], rfl, ?_⟩
      refine List.Perm.trans ?_ (sectionPaths_perm _ hsplit).symm
      show (sectionPaths ⟨P.pt, u.vec⟩ act').Perm _
      have h1 : sectionPaths ⟨P.pt, u.vec⟩ dropped' = [] := by
        refine sectionPaths_none _ _ fun t ht => ?_
        obtain ⟨r, rfl⟩ := hmem t (by simp [ht])
        exact intersectTriangle_none P u r (Or.inr (hd' _ ht r rfl))
      have h2 : sectionPaths ⟨P.pt, u.vec⟩ rest' = [] := by
        refine sectionPaths_none _ _ fun t ht => ?_
        obtain ⟨r, rfl⟩ := hmem t (by simp [ht])
        exact intersectTriangle_none P u r (Or.inl (hrz _ ht r rfl))
      have happ : sectionPaths ⟨P.pt, u.vec⟩ (dropped' ++ act' ++ rest') =
          sectionPaths ⟨P.pt, u.vec⟩ dropped' ++ sectionPaths ⟨P.pt, u.vec⟩ act' ++ sectionPaths ⟨P.pt, u.vec⟩ rest' := by
        unfold sectionPaths; rw [List.filterMap_append, List.filterMap_append]
      rw [happ, h1, h2]
      simp
    | succ m =>
      simp only [List.getElem?_cons_succ] at hj
      have hinc : P.dot u ≤ (P + sh).dot u := by
        have : (P + sh).dot u = P.dot u + sh.dot u := by simp [R3.dot]; ring
        linarith
      obtain ⟨g1, g2, g3⟩ := ih (i + 1) (P + sh) act' rest' dropped' [] rest' hsplit rfl
        (fun t ht r hr => lt_of_lt_of_le (hd' t ht r hr) hinc) (by simp) hsrt' m j hj
      refine ⟨?_, by omega, g3⟩
      rw [g1]
      have : P + sh + (m : ℝ) • sh = P + ((m + 1 : Nat) : ℝ) • sh := by
        apply R3.ext <;> simp <;> ring
      rw [this]

/-- the sort gives a list ordered by lowest projection -/
theorem sortByMinZ_sorted (S : Sorter) (u : R3) (ts : List RTri) :
    MinSorted u (sortByMinZ S u.vec (rmesh ts).triangles) := by
  have hmem : ∀ t ∈ (rmesh ts).triangles, IsR t := by
    intro t ht
    obtain ⟨r, _, rfl⟩ := List.mem_map.1 ht
    exact ⟨r, rfl⟩
  have hsw : StrictWeakOn (fun a b : Triangle XR => a.minZ u.vec <? b.minZ u.vec) (rmesh ts).triangles := by
    constructor
    · intro a ha
      obtain ⟨r, rfl⟩ := hmem a ha
      simp [minZ_tri]
    · intro a ha b hb c hc h1 h2
      obtain ⟨r, rfl⟩ := hmem a ha
      obtain ⟨s, rfl⟩ := hmem b hb
      obtain ⟨q, rfl⟩ := hmem c hc
      simp only [minZ_tri, XR.fin_lt, decide_eq_true_eq] at *
      linarith
    · intro a ha b hb c hc h1 h2 h3 h4
      obtain ⟨r, rfl⟩ := hmem a ha
      obtain ⟨s, rfl⟩ := hmem b hb
      obtain ⟨q, rfl⟩ := hmem c hc
      simp only [minZ_tri, XR.fin_lt, decide_eq_false_iff_not, not_lt] at *
      constructor <;> linarith
  refine (S.sorted _ _ hsw).imp ?_
  rintro a b h r s rfl rfl
  simp only [minZ_tri, XR.fin_lt, decide_eq_false_iff_not, not_lt] at h
  exact h

/-! ### supports -/

theorem mem_triangleLines {ts : List (Triangle XR)} (h : ∀ t ∈ ts, IsR t) :
    ∀ l ∈ triangleLines ts, ∃ a b : R3, l = ⟨a.pt, b.pt⟩ := by
  intro l hl
  obtain ⟨t, ht, hl⟩ := List.mem_flatMap.1 hl
  obtain ⟨r, rfl⟩ := h t ht
  simp only [List.mem_cons, List.not_mem_nil, or_false, RTri.tri] at hl
  rcases hl with rfl | rfl | rfl
  · exact ⟨_, _, rfl⟩
  · exact ⟨_, _, rfl⟩
  · exact ⟨_, _, rfl⟩

theorem undoubled_sub {α : Type} [Flt α] (ls : List (Line α)) : ∀ pre, ∀ l ∈ undoubled pre ls, l ∈ ls := by
  induction ls with
  | nil => intro pre l hl; simp [undoubled] at hl
  | cons a t ih =>
    intro pre l hl
    unfold undoubled at hl
    rw [List.mem_append] at hl
    rcases hl with hl | hl
    · split at hl
      · simp at hl
      · simp at hl; simp [hl]
    · exact List.mem_cons_of_mem _ (ih _ l hl)

theorem filterTriangles_sub {α : Type} [Flt α] (m : Mesh α) (ang : α) (v : Vec α) :
    ∀ t ∈ filterTrianglesByColor m ang v, t ∈ m.triangles := by
  intro t ht
  unfold filterTrianglesByColor at ht
  obtain ⟨⟨t', c⟩, hq, hc⟩ := List.mem_filterMap.1 ht
  split at hc
  · injection hc with hc; subst hc; exact (List.of_mem_zip hq).1
  · cases hc

theorem mapM_mem {β γ : Type} (f : β → Go γ) : ∀ (l : List β) (r : List γ), l.mapM f = .ok r →
    List.Forall₂ (fun x y => f x = .ok y) l r := by
  intro l
  induction l with
  | nil => intro r h; injection h with h; subst h; exact List.Forall₂.nil
  | cons a t ih =>
    intro r h
    rw [List.mapM_cons] at h
    cases ha : f a with
    | error e => rw [ha] at h; cases h
    | ok y =>
      rw [ha] at h
      cases ht : t.mapM f with
      | error e => rw [ht] at h; cases h
      | ok ys =>
        rw [ht] at h
        have h : (Except.ok (y :: ys) : Go _) = Except.ok r := h
        injection h with h
        subst h
        exact List.Forall₂.cons ha (ih ys ht)

/-- the overhanging triangles, shifted by the support offset, are finite -/
theorem colored_isR (ts : List RTri) (sett : Settings XR) (un : R3) (so : ℝ) (h1 : sett.unitVector = un.vec)
    (h2 : sett.supportOffset = XR.fin so) :
    ∀ t ∈ (if sett.supportOffset =? lit 0 0 then filterTrianglesByColor (rmesh ts) sett.colorizedAngle sett.unitVector
    else (filterTrianglesByColor (rmesh ts) sett.colorizedAngle sett.unitVector).map fun t =>
      t.shift (sett.unitVector.mulScalar (-sett.supportOffset))), IsR t := by
  have h0 : ∀ t ∈ filterTrianglesByColor (rmesh ts) sett.colorizedAngle sett.unitVector, IsR t := by
    intro t ht
    obtain ⟨r, _, rfl⟩ := List.mem_map.1 (filterTriangles_sub _ _ _ t ht)
    exact ⟨r, rfl⟩
  intro t ht
  split at ht
  · exact h0 t ht
  · obtain ⟨t', ht', rfl⟩ := List.mem_map.1 ht
    obtain ⟨r, rfl⟩ := h0 t' ht'
    refine ⟨r.map (· + (-so) • un), ?_⟩
    rw [h1, h2, XR.fin_neg, mulScalar_vec]
    show newTriangle (r.a.pt.shift _) (r.b.pt.shift _) (r.c.pt.shift _) = _
    rw [shift_pt, shift_pt, shift_pt, newTriangle_tri]
    rfl

/-- with a proper direction the supports are computed without a crash -/
theorem supportTriangles_ok (S : Sorter) (ts : List RTri) (u : R3) (hu : u ≠ 0) (lo : ℝ) (sett : Settings XR)
    (un : R3) (so : ℝ) (h1 : sett.unitVector = un.vec) (h2 : sett.supportOffset = XR.fin so) :
    ∃ sup, supportTriangles S (rmesh ts) u.vec (XR.fin lo) sett = .ok sup := by
  have hcol := colored_isR ts sett un so h1 h2
  unfold supportTriangles
  dsimp only
  generalize (if sett.supportOffset =? lit 0 0 then filterTrianglesByColor (rmesh ts) sett.colorizedAngle sett.unitVector
    else (filterTrianglesByColor (rmesh ts) sett.colorizedAngle sett.unitVector).map fun t =>
      t.shift (sett.unitVector.mulScalar (-sett.supportOffset))) = col at hcol ⊢
  have key : ∀ l ∈ makeUndoubledLines col, ∃ s : Line XR,
      (do return (⟨← (⟨(u.vec.mulScalar (XR.fin lo)).toPoint, u.vec⟩ : Plane XR).proectionPointToPlane l.p1,
        ← (⟨(u.vec.mulScalar (XR.fin lo)).toPoint, u.vec⟩ : Plane XR).proectionPointToPlane l.p2⟩ : Line XR) : Go (Line XR)) = .ok s := by
    intro l hl
    obtain ⟨ca, cb, rfl⟩ := mem_triangleLines hcol l (undoubled_sub _ _ l hl)
    obtain ⟨w1, e1, _⟩ := C26_point_on_plane (lo • u) u ca hu
    obtain ⟨w2, e2, _⟩ := C26_point_on_plane (lo • u) u cb hu
    refine ⟨⟨w1.pt, w2.pt⟩, ?_⟩
    rw [mulScalar_vec, toPoint_vec]
    simp only [e1, e2]
    rfl
  have : ∃ sl, makeSupportLines (makeUndoubledLines col) (⟨(u.vec.mulScalar (XR.fin lo)).toPoint, u.vec⟩ : Plane XR) = .ok sl := by
    unfold makeSupportLines
    choose! f hf using key
    exact ⟨_, mapM_ok _ f _ hf⟩
  obtain ⟨sl, hsl⟩ := this
  rw [hsl]
  exact ⟨_, rfl⟩

/-- support triangles are finite and reach down to the lowest plane -/
theorem supportTriangles_low (S : Sorter) (ts : List RTri) (u : R3) (hu : u.normSq = 1 ∨ u = 0) (lo : ℝ)
    (hlo : u = 0 → lo = 0) (sett : Settings XR)
    (un : R3) (so : ℝ) (h1 : sett.unitVector = un.vec) (h2 : sett.supportOffset = XR.fin so) (sup : List (Triangle XR))
    (h : supportTriangles S (rmesh ts) u.vec (XR.fin lo) sett = .ok sup) :
    ∀ t ∈ sup, ∃ r : RTri, t = r.tri ∧ r.lo u ≤ lo := by
  unfold supportTriangles at h
  dsimp only at h
  generalize hcol : (if sett.supportOffset =? lit 0 0 then filterTrianglesByColor (rmesh ts) sett.colorizedAngle sett.unitVector
    else (filterTrianglesByColor (rmesh ts) sett.colorizedAngle sett.unitVector).map fun t =>
      t.shift (sett.unitVector.mulScalar (-sett.supportOffset))) = col at h
  have hcolR : ∀ t ∈ col, IsR t := by
    rw [← hcol]; exact colored_isR ts sett un so h1 h2
  cases hs : makeSupportLines (makeUndoubledLines col) (⟨(u.vec.mulScalar (XR.fin lo)).toPoint, u.vec⟩ : Plane XR) with
  | error e => rw [hs] at h; cases h
  | ok sl =>
    rw [hs] at h
    have h : (Except.ok _ : Go (List (Triangle XR))) = Except.ok sup := h
    injection h with h
    have hf := mapM_mem _ _ _ hs
    intro t ht
    rw [← h] at ht
    obtain ⟨⟨s, c⟩, hsc, ht⟩ := List.mem_flatMap.1 ht
    have hc : c ∈ makeUndoubledLines col := (List.of_mem_zip hsc).2
    obtain ⟨ca, cb, hcl⟩ := mem_triangleLines hcolR c (undoubled_sub _ _ c hc)
    have hpair : (do return (⟨← (⟨(u.vec.mulScalar (XR.fin lo)).toPoint, u.vec⟩ : Plane XR).proectionPointToPlane c.p1,
        ← (⟨(u.vec.mulScalar (XR.fin lo)).toPoint, u.vec⟩ : Plane XR).proectionPointToPlane c.p2⟩ : Line XR) : Go (Line XR)) = .ok s := by
      have : ∀ {l : List (Line XR)} {r : List (Line XR)} {g : Line XR → Go (Line XR)},
          List.Forall₂ (fun x y => g x = .ok y) l r → (s, c) ∈ r.zip l → g c = .ok s := by
        intro l r g hf
        induction hf with
        | nil => intro h; simp at h
        | cons hab _ ih =>
          intro h
          rw [List.zip_cons_cons, List.mem_cons] at h
          rcases h with h | h
          · injection h with e1 e2; subst e1 e2; exact hab
          · exact ih h
      exact this hf hsc
    rw [hcl, mulScalar_vec, toPoint_vec] at hpair
    rcases hu with hu | hu
    · have hune : u ≠ 0 := by rintro rfl; simp [R3.normSq, R3.dot] at hu
      obtain ⟨w1, e1, on1, _⟩ := C26_point_on_plane (lo • u) u ca hune
      obtain ⟨w2, e2, on2, _⟩ := C26_point_on_plane (lo • u) u cb hune
      simp only [e1, e2] at hpair
      have hpair : (Except.ok (⟨w1.pt, w2.pt⟩ : Line XR) : Go (Line XR)) = Except.ok s := hpair
      injection hpair with hpair
      have hw1 : w1.dot u = lo := by
        unfold R3.onPlane at on1
        rw [R3.height_eq] at on1
        have : (lo • u).dot u = lo * u.normSq := by simp [R3.dot, R3.normSq]; ring
        rw [this, hu] at on1
        linarith
      rw [← hpair, hcl] at ht
      unfold supportPair at ht
      simp only [List.mem_append] at ht
      rcases ht with ht | ht
      · split at ht
        · simp only [List.mem_singleton] at ht
          refine ⟨⟨w1, ca, cb⟩, by rw [ht, newTriangle_tri], ?_⟩
          rw [← hw1]; exact min_le_left _ _
        · simp at ht
      · split at ht
        · simp only [List.mem_singleton] at ht
          refine ⟨⟨w1, w2, cb⟩, by rw [ht, newTriangle_tri], ?_⟩
          rw [← hw1]; exact min_le_left _ _
        · simp at ht
    · subst hu
      simp only [C26_zero_normal] at hpair
      cases hpair

end Goosli
