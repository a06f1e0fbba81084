import Verif.Props.C15
import Verif.Props.C17
import Verif.Proofs.SweepAny
/-!
# C129: a level has closed contours exactly if the facets match along the edges that cross it
-/
set_option autoImplicit false
namespace Goosli
open Flt

/-! ## Spec -/

/-- every edge that crosses the plane belongs to two facets that run along it in opposite directions -/
def MatchedAt (P N : R3) (ts : List RTri) : Prop :=
  ∀ e ∈ dirEdges ts, (ascends P N e ∨ descends P N e) → e.swap ∈ dirEdges ts

/-! ## Closed chains are balanced -/

/-- in a closed chain the ends are the starts, in another order -/
theorem chain_balanced {β γ : Type} (st en : β → γ) : ∀ (g : List β) (a b : β), g.head? = some a → g.getLast? = some b →
    g.IsChain (fun x y => en x = st y) → en b = st a → (g.map en).Perm (g.map st) := by
  have key : ∀ (t : List β) (a b : β), (a :: t).getLast? = some b → (a :: t).IsChain (fun x y => en x = st y) →
      (a :: t).map en = t.map st ++ [en b] := by
    intro t
    induction t with
    | nil => intro a b hb _; simp at hb; subst hb; rfl
    | cons c t ih =>
      intro a b hb hc
      cases hc with
      | cons_cons h hc =>
        rw [List.map_cons, ih c b (by simpa using hb) hc, List.map_cons, h]
        rfl
  intro g a b ha hb hc he
  cases g with
  | nil => cases ha
  | cons c t =>
    simp at ha
    subst ha
    rw [key t c b hb hc, he, List.map_cons]
    exact List.perm_append_comm

/-- if all joined paths are closed, every point starts as many of the given paths as it ends -/
theorem closed_balanced (S : Sorter) {segs : List (R3 × R3)} {p : List (Path XR)} (hp : List.Forall₂ runsFromTo p segs)
    (hsep : ∀ a ∈ segs.map Prod.fst ++ segs.map Prod.snd, ∀ b ∈ segs.map Prod.fst ++ segs.map Prod.snd, a.sep b)
    {out : List (Path XR)} (ho : joinPaths3 S p = .ok out) (hc : ∀ q ∈ out, q.isClosed = true) :
    (segs.map Prod.snd).Perm (segs.map Prod.fst) := by
  have ends : ∀ q ∈ p, 2 ≤ q.points.length ∧ ∃ s ∈ segs, q.points.head? = some s.1.pt ∧ q.points.getLast? = some s.2.pt := by
    clear hsep ho
    induction hp with
    | nil => intro q hq; cases hq
    | cons h _ ih =>
      intro q hq
      rcases List.mem_cons.1 hq with rfl | hq
      · exact ⟨h.1, _, by simp, h.2⟩
      · obtain ⟨h1, s, hs, h2⟩ := ih q hq
        exact ⟨h1, s, by simp [hs], h2⟩
  have lists : p.map (fun q => q.points.getLast?) = (segs.map Prod.snd).map (fun w => some w.pt) ∧
      p.map (fun q => q.points.head?) = (segs.map Prod.fst).map (fun w => some w.pt) := by
    clear hsep ho ends
    induction hp with
    | nil => exact ⟨rfl, rfl⟩
    | cons h _ ih => exact ⟨by rw [List.map_cons, ih.1, h.2.2]; rfl, by rw [List.map_cons, ih.2, h.2.1]; rfl⟩
  obtain ⟨out', groups, ho', hgp, hgn, hog, -, hch0⟩ := C13_join_conserves S p fun q hq h => by
    have := (ends q hq).1
    rw [h] at this
    simp at this
  rw [ho] at ho'
  obtain rfl : out = out' := by injection ho'
  have hch := hch0 fun q hq => (ends q hq).1
  have mem : ∀ g ∈ groups, ∀ q ∈ g, q ∈ p := fun g hg q hq => hgp.mem_iff.1 (List.mem_flatten.2 ⟨g, hg, hq⟩)
  have same : ∀ a ∈ p, ∀ b ∈ p, ∀ x y, a.points.getLast? = some x → b.points.head? = some y → x.equal y = true → x = y := by
    intro a ha b hb x y hx hy he
    obtain ⟨-, s, hs, -, e1⟩ := ends a ha
    obtain ⟨-, r, hr, e2, -⟩ := ends b hb
    rw [e1] at hx; rw [e2] at hy
    injection hx with hx; injection hy with hy
    subst hx; subst hy
    rw [sep_near (hsep s.2 (List.mem_append_right _ (List.mem_map.2 ⟨s, hs, rfl⟩)) r.1 (List.mem_append_left _ (List.mem_map.2 ⟨r, hr, rfl⟩)))
      ((equal_pt _ _).1 he)]
  have one : ∀ g ∈ groups, (g.map fun q => q.points.getLast?).Perm (g.map fun q => q.points.head?) := by
    intro g hg
    obtain ⟨a, ha⟩ : ∃ a, g.head? = some a := ⟨_, List.head?_eq_some_head (hgn g hg)⟩
    obtain ⟨b, hb⟩ : ∃ b, g.getLast? = some b := ⟨_, List.getLast?_eq_getLast_of_ne_nil (hgn g hg)⟩
    have am := mem g hg a (List.mem_of_mem_head? ha)
    have bm := mem g hg b (List.mem_of_getLast? hb)
    refine chain_balanced (fun q : Path XR => q.points.head?) (fun q => q.points.getLast?) g a b ha hb ?_ ?_
    · refine List.IsChain.imp_of_mem_imp ?_ (hch g hg)
      rintro x y hx hy ⟨u, v, hu, hv, he⟩
      show x.points.getLast? = y.points.head?
      rw [hu, hv, same x (mem g hg x hx) y (mem g hg y hy) u v hu hv he]
    · have cl := hc (concatPath g) (by rw [hog]; exact List.mem_map.2 ⟨g, hg, rfl⟩)
      obtain ⟨la, s, -, hs, -⟩ := ends a am
      obtain ⟨lb, r, -, -, hr⟩ := ends b bm
      have h1 : (concatPath g).points.head? = a.points.head? := concatPath_head ha (by intro h; rw [h] at la; simp at la)
      have h2 : (concatPath g).points.getLast? = b.points.getLast? := concatPath_last hb fun q hq => (ends q (mem g hg q hq)).1
      have len : ¬ (concatPath g).points.length ≤ 1 := by
        cases g with
        | nil => cases ha
        | cons c t =>
          simp at ha
          subst ha
          simp only [concatPath, List.length_append]
          omega
      unfold Path.isClosed at cl
      rw [h1, h2, hs, hr] at cl
      simp only [if_neg len] at cl
      have e : s.1.near r.2 := (equal_pt _ _).1 cl
      have : r.2.pt = s.1.pt := same b bm a am _ _ hr hs ((equal_pt _ _).2 (near_symm e))
      rw [hr, hs, this]
  have all : (groups.flatten.map fun q => q.points.getLast?).Perm (groups.flatten.map fun q => q.points.head?) := by
    clear hgp hog hc hgn hch hch0 mem
    induction groups with
    | nil => exact .refl _
    | cons g t ih =>
      rw [List.flatten_cons, List.map_append, List.map_append]
      exact (one g (by simp)).append (ih fun g hg => one g (by simp [hg]))
  have := ((hgp.map _).symm.trans all).trans (hgp.map _)
  rw [lists.1, lists.2] at this
  exact (List.map_perm_map_iff fun a b h => R3.pt_inj (Option.some.inj h)).1 this

/-- an edge that crosses the plane without an opposite one leaves a contour open -/
theorem closed_matched (S : Sorter) {ts : List RTri} {P N : R3} (hdeg : ∀ t ∈ ts, t.nrm ≠ 0)
    (hsm : ∀ w ∈ allVerts ts, w.small) (hoff : ∀ w ∈ allVerts ts, R3.height P N w ≠ 0) (hsep : WellSeparated P N ts)
    {p : List (Path XR)} (hp : p.Perm (sectionPaths (Plane.mk P.pt N.vec) (rmesh ts).triangles))
    {out : List (Path XR)} (ho : joinPaths3 S p = .ok out) (hc : ∀ q ∈ out, q.isClosed = true) : MatchedAt P N ts := by
  obtain ⟨segs0, h1, h2, h3⟩ := mesh_section hsm hoff hdeg hsep ts (fun t ht => ht)
  obtain ⟨segs, hf, hsp⟩ := List.perm_comp_forall₂ hp h1
  have cross : ∀ a ∈ segs.map Prod.fst ++ segs.map Prod.snd, ∃ e ∈ dirEdges ts, (ascends P N e ∨ descends P N e) ∧ (crossAt P N e).round8 = a := by
    intro a ha
    rcases List.mem_append.1 ha with ha | ha
    · have := (hsp.map Prod.fst).mem_iff.1 ha
      rw [h2] at this
      obtain ⟨e, he, rfl⟩ := List.mem_map.1 this
      obtain ⟨he, hb⟩ := mem_ups.1 he
      exact ⟨e, he, Or.inl hb, rfl⟩
    · have := (hsp.map Prod.snd).mem_iff.1 ha
      rw [h3] at this
      obtain ⟨e, he, rfl⟩ := List.mem_map.1 this
      obtain ⟨he, hb⟩ := mem_downs.1 he
      exact ⟨e, he, Or.inr hb, rfl⟩
  have bal := closed_balanced S hf (by
    intro a ha b hb
    obtain ⟨e, he, ae, rfl⟩ := cross a ha
    obtain ⟨f, hf, af, rfl⟩ := cross b hb
    obtain ⟨hx, hy, hz, _⟩ := hsep e he f hf ae af
    exact ⟨clearlyApart_r8 hx, clearlyApart_r8 hy, clearlyApart_r8 hz⟩) ho hc
  have bal0 : ((downs P N (dirEdges ts)).map fun e => (crossAt P N e).round8).Perm ((ups P N (dirEdges ts)).map fun e => (crossAt P N e).round8) := by
    rw [← h2, ← h3]
    exact ((hsp.map Prod.snd).symm.trans bal).trans (hsp.map Prod.fst)
  have same : ∀ e ∈ dirEdges ts, ∀ f ∈ dirEdges ts, (ascends P N e ∨ descends P N e) → (ascends P N f ∨ descends P N f) →
      (crossAt P N e).round8 = (crossAt P N f).round8 → e = f ∨ e = f.swap := by
    intro e he f hf ae af h
    obtain ⟨hx, hy, hz, hinj⟩ := hsep e he f hf ae af
    apply hinj
    by_contra hX
    apply (not_near_of_apart hx hy hz hX).2
    rw [h]
    exact R3.near_refl _
  rintro e he (ha | hd)
  · obtain ⟨f, hf, h⟩ := List.mem_map.1 (bal0.mem_iff.2 (List.mem_map.2 ⟨e, mem_ups.2 ⟨he, ha⟩, rfl⟩))
    obtain ⟨hf, hfd⟩ := mem_downs.1 hf
    rcases same e he f hf (Or.inl ha) (Or.inr hfd) h.symm with rfl | rfl
    · exact absurd ha.1 (not_lt.2 hfd.2.le)
    · rw [Prod.swap_swap]; exact hf
  · obtain ⟨f, hf, h⟩ := List.mem_map.1 (bal0.mem_iff.1 (List.mem_map.2 ⟨e, mem_downs.2 ⟨he, hd⟩, rfl⟩))
    obtain ⟨hf, hfa⟩ := mem_ups.1 hf
    rcases same e he f hf (Or.inr hd) (Or.inl hfa) h.symm with rfl | rfl
    · exact absurd hfa.1 (not_lt.2 hd.2.le)
    · rw [Prod.swap_swap]; exact hf

/-- matching edges give closed contours -/
theorem matched_closed (S : Sorter) {ts : List RTri} {P N : R3} (hdeg : ∀ t ∈ ts, t.nrm ≠ 0) (h0 : (dirEdges ts).Nodup)
    (hsm : ∀ w ∈ allVerts ts, w.small) (hoff : ∀ w ∈ allVerts ts, R3.height P N w ≠ 0) (hsep : WellSeparated P N ts)
    {p : List (Path XR)} (hp : p.Perm (sectionPaths (Plane.mk P.pt N.vec) (rmesh ts).triangles)) (hw : MatchedAt P N ts) :
    ∃ out, joinPaths3 S p = .ok out ∧ ∀ q ∈ out, q.isClosed = true ∧ 2 ≤ q.points.length ∧ q.points.head? = q.points.getLast? := by
  obtain ⟨segs0, h1, h2, h3⟩ := mesh_section hsm hoff hdeg hsep ts (fun t ht => ht)
  obtain ⟨segs, hf, hsp⟩ := List.perm_comp_forall₂ hp h1
  have hnd : (ups P N (dirEdges ts)).Nodup := h0.filter _
  have hndd : (downs P N (dirEdges ts)).Nodup := h0.filter _
  have hcr : ∀ e ∈ ups P N (dirEdges ts), ∀ f ∈ ups P N (dirEdges ts), (crossAt P N e).round8 = (crossAt P N f).round8 → e = f := by
    intro e he f hf heq
    obtain ⟨he, ha⟩ := mem_ups.1 he
    obtain ⟨hf, hb⟩ := mem_ups.1 hf
    obtain ⟨hx, hy, hz, hinj⟩ := hsep e he f hf (Or.inl ha) (Or.inl hb)
    by_contra hne
    have hX : crossAt P N e ≠ crossAt P N f := by
      intro hc
      rcases hinj hc with h | h
      · exact hne h
      · rw [h] at ha
        have := ha.1; have := hb.2
        simp only [Prod.fst_swap] at *
        linarith
    apply (not_near_of_apart hx hy hz hX).2
    rw [heq]
    exact R3.near_refl _
  have hst : (segs0.map Prod.fst).Nodup := by
    rw [h2]
    exact List.Nodup.map_on hcr hnd
  have hpr : (segs0.map Prod.snd).Perm (segs0.map Prod.fst) := by
    rw [h2, h3]
    have hperm : (downs P N (dirEdges ts)).Perm ((ups P N (dirEdges ts)).map Prod.swap) := by
      rw [List.perm_ext_iff_of_nodup hndd (hnd.map Prod.swap_injective)]
      intro e
      rw [mem_downs, List.mem_map]
      constructor
      · rintro ⟨he, hd⟩
        exact ⟨e.swap, mem_ups.2 ⟨hw e he (Or.inr hd), hd⟩, Prod.swap_swap e⟩
      · rintro ⟨f, hf, rfl⟩
        obtain ⟨hf, ha⟩ := mem_ups.1 hf
        exact ⟨hw f hf (Or.inl ha), ha⟩
    refine (hperm.map _).trans ?_
    rw [List.map_map]
    have : (ups P N (dirEdges ts)).map ((fun e => (crossAt P N e).round8) ∘ Prod.swap) =
        (ups P N (dirEdges ts)).map (fun e => (crossAt P N e).round8) := by
      refine List.map_congr_left fun e he => ?_
      obtain ⟨_, ha⟩ := mem_ups.1 he
      show (crossAt P N e.swap).round8 = _
      rw [crossAt_swap (by have := ha.1; have := ha.2; intro hc; linarith)]
    rw [this]
  refine C14_loops_close S segs p hf ?_ ?_ ?_
  · exact (hsp.map Prod.fst).nodup_iff.2 hst
  · exact ((hsp.map Prod.snd).trans hpr).trans (hsp.map Prod.fst).symm
  · have hmem : ∀ a ∈ segs.map Prod.fst, ∃ e ∈ ups P N (dirEdges ts), (crossAt P N e).round8 = a := by
      intro a ha
      have := (hsp.map Prod.fst).mem_iff.1 ha
      rw [h2] at this
      exact List.mem_map.1 this
    intro a ha b hb
    obtain ⟨e, he, rfl⟩ := hmem a ha
    obtain ⟨f, hf, rfl⟩ := hmem b hb
    obtain ⟨he, hae⟩ := mem_ups.1 he
    obtain ⟨hf, haf⟩ := mem_ups.1 hf
    obtain ⟨hx, hy, hz, _⟩ := hsep e he f hf (Or.inl hae) (Or.inl haf)
    exact ⟨clearlyApart_r8 hx, clearlyApart_r8 hy, clearlyApart_r8 hz⟩

/-- merging lines does not close an open path -/
theorem open_stays_open {α : Type} [Flt α] (p : Path α) (h : p.isClosed = false) : p.minimizeLines.isClosed = false := by
  rcases hp : p.points with _ | ⟨p0, _ | ⟨p1, _ | ⟨p2, rest⟩⟩⟩
  · rw [C17_short_unchanged p (by simp [hp])]; exact h
  · rw [C17_short_unchanged p (by simp [hp])]; exact h
  · rw [C17_short_unchanged p (by simp [hp])]; exact h
  · obtain ⟨h1, h2, h3, h4⟩ := minimizeLoop_spec (p2 :: rest) [p0, p1] ⟨p0, p1⟩ (by simp)
    have hcl : (Path.mk (minimizeLoop (p2 :: rest) [p0, p1] ⟨p0, p1⟩).1).isClosed = false := by
      rw [isClosed_ends (q := p) (by rw [h3, hp]; rfl) (by rw [h4, hp]; rfl) h2 (by simp [hp])]; exact h
    have e : p.minimizeLines = ⟨(minimizeLoop (p2 :: rest) [p0, p1] ⟨p0, p1⟩).1⟩ := by
      simp only [Path.minimizeLines, hp]
      rcases minimizeClose_cases _ (minimizeLoop (p2 :: rest) [p0, p1] ⟨p0, p1⟩).2 h2 with h' | ⟨h', _⟩
      · rw [h']
      · rw [hcl] at h'; cases h'
    rw [e]; exact hcl

/-- the corners of the sections of the triangles of a mesh are finite -/
theorem section_finite {ts : List RTri} {P N : R3} (hdeg : ∀ t ∈ ts, t.nrm ≠ 0)
    (hsm : ∀ w ∈ allVerts ts, w.small) (hoff : ∀ w ∈ allVerts ts, R3.height P N w ≠ 0) (hsep : WellSeparated P N ts) :
    ∀ r ∈ sectionPaths (Plane.mk P.pt N.vec) (rmesh ts).triangles, ∃ a b : R3, 2 ≤ r.points.length ∧ r.points.head? = some a.pt ∧ r.points.getLast? = some b.pt := by
  obtain ⟨segs, hseg, -, -⟩ := mesh_section hsm hoff hdeg hsep ts (fun t ht => ht)
  intro r hr
  generalize sectionPaths (Plane.mk P.pt N.vec) (rmesh ts).triangles = l at hseg hr
  induction hseg with
  | nil => cases hr
  | cons h _ ih =>
    rcases List.mem_cons.1 hr with rfl | hr
    · exact ⟨_, _, h⟩
    · exact ih hr

/-- **C129.** Let the mesh have small coordinates and no degenerate facets, let no two facets run along an edge in the same direction, and let the
plane of a layer pass through no vertex and cross different edges in well separated points. Then the contours of the layer are closed exactly
if every edge that crosses the plane belongs to two facets that run along it in opposite directions. A hole or a facet with the wrong
orientation leaves contours open in exactly the layers that cross its edges. -/
theorem C129_closed_iff (S : Sorter) (ts : List RTri) (hne : ts ≠ []) (d : R3) (sett : Settings XR) (hs : sett.supportsOn = false)
    (hr : ∀ w ∈ allVerts ts, |w.dot d.unit| ≤ XR.maxF64R) (h0 : (dirEdges ts).Nodup) (hdeg : ∀ t ∈ ts, t.nrm ≠ 0)
    (hsm : ∀ w ∈ allVerts ts, w.small) (jobs : List (Job XR)) (hj : sliceJobs S (rmesh ts) d.vec.normalize sett = .ok jobs)
    (j : Job XR) (hm : j ∈ jobs) (Q : R3) (hQ : j.plane = ⟨Q.pt, d.unit.vec⟩)
    (hoff : ∀ w ∈ allVerts ts, R3.height Q d.unit w ≠ 0) (hsep : WellSeparated Q d.unit ts) :
    ∃ l : Layer XR, runJob S j = .ok l ∧ ((∀ q ∈ l.paths, q.isClosed = true) ↔ MatchedAt Q d.unit ts) := by
  obtain ⟨sup, h1, h2⟩ := C10_sweep S ts hne d sett hr (fun h => by rw [hs] at h; cases h) jobs hj
  have hsup : sup = [] := by
    unfold supportsOf at h1
    rw [if_neg (by rw [hs]; simp)] at h1
    injection h1 with h1
    exact h1.symm
  have hperm := h2 j hm
  rw [hsup, List.nil_append, hQ] at hperm
  have two : ∀ q ∈ jobPaths j, q.points ≠ [] := by
    intro q hq h; have := jobPaths_two j q hq; rw [h] at this; cases this
  obtain ⟨out, groups, ho, hgp, -, hog, -⟩ := C13_join_conserves S (jobPaths j) two
  refine ⟨⟨j.order, j.plane.n, out.map Path.minimizeLines, [], [], []⟩, by unfold runJob joinPaths3AndMinimize; rw [ho]; rfl, ?_, ?_⟩
  · intro h
    refine closed_matched S hdeg hsm hoff hsep hperm ho fun q hq => ?_
    cases hc : q.isClosed with
    | true => rfl
    | false =>
      have := h q.minimizeLines (List.mem_map.2 ⟨q, hq, rfl⟩)
      rw [open_stays_open q hc] at this
      cases this
  · intro h q hq
    obtain ⟨q0, hq0, rfl⟩ := List.mem_map.1 hq
    obtain ⟨out', ho', hcl⟩ := matched_closed S hdeg h0 hsm hoff hsep hperm h
    rw [ho] at ho'
    obtain rfl : out = out' := by injection ho'
    have fin : ∀ x ∈ q0.points, ∃ w : R3, x = w.pt := by
      intro x hx
      rw [hog] at hq0
      obtain ⟨g, hg, rfl⟩ := List.mem_map.1 hq0
      obtain ⟨r, hr, hx⟩ := mem_concatPath hx
      have rm := hgp.mem_iff.1 (List.mem_flatten.2 ⟨g, hg, hr⟩)
      obtain ⟨a, b, -, e1, e2⟩ := section_finite hdeg hsm hoff hsep r (hperm.mem_iff.1 rm)
      match hp : r.points, jobPaths_two j r rm with
      | [y, z], _ =>
        rw [hp] at e1 e2 hx
        simp only [List.head?_cons, List.getLast?_cons_cons, List.getLast?_singleton, Option.some.injEq] at e1 e2
        rcases List.mem_cons.1 hx with rfl | hx
        · exact ⟨_, e1⟩
        · rw [List.mem_singleton] at hx; subst hx; exact ⟨_, e2⟩
    have ex := minimize_exact q0 (hcl q0 hq0).2.2
    unfold Path.isClosed
    rw [← ex]
    cases hh : q0.minimizeLines.points.head? with
    | none => rfl
    | some a =>
      obtain ⟨w, rfl⟩ := fin a (minimize_mem q0 a (List.mem_of_mem_head? hh))
      simp only
      split
      · rfl
      · exact (equal_pt w w).2 (R3.near_refl w)

/-! ## A facet with the wrong orientation -/

/-- the tetrahedron with the facet in the plane `y = 0` turned over -/
def flipTetra : List RTri :=
  [⟨⟨0, 0, 0⟩, ⟨0, 4, 0⟩, ⟨4, 0, 0⟩⟩, ⟨⟨4, 0, 0⟩, ⟨0, 0, 0⟩, ⟨0, 0, 4⟩⟩, ⟨⟨4, 0, 0⟩, ⟨0, 4, 0⟩, ⟨0, 0, 4⟩⟩, ⟨⟨0, 4, 0⟩, ⟨0, 0, 0⟩, ⟨0, 0, 4⟩⟩]

theorem flipTetra_edges : dirEdges flipTetra =
    [(⟨0, 0, 0⟩, ⟨0, 4, 0⟩), (⟨0, 4, 0⟩, ⟨4, 0, 0⟩), (⟨4, 0, 0⟩, ⟨0, 0, 0⟩),
     (⟨4, 0, 0⟩, ⟨0, 0, 0⟩), (⟨0, 0, 0⟩, ⟨0, 0, 4⟩), (⟨0, 0, 4⟩, ⟨4, 0, 0⟩),
     (⟨4, 0, 0⟩, ⟨0, 4, 0⟩), (⟨0, 4, 0⟩, ⟨0, 0, 4⟩), (⟨0, 0, 4⟩, ⟨4, 0, 0⟩),
     (⟨0, 4, 0⟩, ⟨0, 0, 0⟩), (⟨0, 0, 0⟩, ⟨0, 0, 4⟩), (⟨0, 0, 4⟩, ⟨0, 4, 0⟩)] := rfl

/-- **C129.** It does not suffice that the surface is closed: this is a watertight tetrahedron with one facet turned over, and for every order the sort may
return, an assembled contour of the level `z = 1` is open. -/
theorem C129_orientation : Watertight exTetra ∧ List.Forall₂ (fun r t : RTri => r = t ∨ r = ⟨t.b, t.a, t.c⟩) flipTetra exTetra ∧
    ∀ S : Sorter, ∃ out, joinPaths3AndMinimize S (sectionPaths (Plane.mk (⟨0, 0, 1⟩ : R3).pt (⟨0, 0, 1⟩ : R3).vec) (rmesh flipTetra).triangles) = .ok out ∧
      ∃ q ∈ out, q.isClosed = false := by
  obtain ⟨w1, w2, w3, w4, w5⟩ := exTetra_ok
  have sub : ∀ e ∈ dirEdges flipTetra, e ∈ dirEdges exTetra := by
    intro e he
    rw [flipTetra_edges] at he
    rw [exTetra_edges]
    simp only [List.mem_cons, List.not_mem_nil, or_false] at he ⊢
    rcases he with h | h | h | h | h | h | h | h | h | h | h | h <;> rw [h] <;> simp
  have verts : ∀ w ∈ allVerts flipTetra, w ∈ allVerts exTetra := by
    intro w hw
    simp only [allVerts, RTri.verts, flipTetra, exTetra, List.flatMap_cons, List.flatMap_nil, List.append_nil, List.mem_cons, List.cons_append,
      List.nil_append, List.not_mem_nil, or_false] at hw ⊢
    rcases hw with h | h | h | h | h | h | h | h | h | h | h | h <;> rw [h] <;> simp
  have hdeg : ∀ t ∈ flipTetra, t.nrm ≠ 0 := by
    intro t ht
    simp only [flipTetra, List.mem_cons, List.not_mem_nil, or_false] at ht
    rcases ht with rfl | rfl | rfl | rfl <;> intro h <;> have hx := congrArg R3.x h <;> have hy := congrArg R3.y h <;>
      have hz := congrArg R3.z h <;> simp [RTri.nrm, R3.cross] at hx hy hz
  refine ⟨w1, .cons (Or.inl rfl) (.cons (Or.inr rfl) (.cons (Or.inl rfl) (.cons (Or.inl rfl) .nil))), fun S => ?_⟩
  have hsm : ∀ w ∈ allVerts flipTetra, w.small := fun w hw => w3 w (verts w hw)
  have hoff : ∀ w ∈ allVerts flipTetra, R3.height ⟨0, 0, 1⟩ ⟨0, 0, 1⟩ w ≠ 0 := fun w hw => w4 w (verts w hw)
  have hsep : WellSeparated ⟨0, 0, 1⟩ ⟨0, 0, 1⟩ flipTetra := fun e he f hf => w5 e (sub e he) f (sub f hf)
  obtain ⟨out, -, ho, -⟩ := C13_join_conserves S (sectionPaths (Plane.mk (⟨0, 0, 1⟩ : R3).pt (⟨0, 0, 1⟩ : R3).vec) (rmesh flipTetra).triangles) (by
    intro q hq h
    obtain ⟨a, b, h2, -⟩ := section_finite hdeg hsm hoff hsep q hq
    rw [h] at h2
    simp at h2)
  refine ⟨out.map Path.minimizeLines, by unfold joinPaths3AndMinimize; rw [ho]; rfl, ?_⟩
  by_contra hn
  push Not at hn
  have m := closed_matched S hdeg hsm hoff hsep (List.Perm.refl _) ho fun q hq => by
    cases hc : q.isClosed with
    | true => rfl
    | false => exact absurd (open_stays_open q hc) (hn _ (List.mem_map.2 ⟨q, hq, rfl⟩))
  have := m (⟨0, 0, 4⟩, ⟨4, 0, 0⟩) (by rw [flipTetra_edges]; simp) (Or.inr (by constructor <;> simp [R3.height, R3.dot] <;> norm_num))
  rw [flipTetra_edges] at this
  have ext_iff : ∀ a b c x y z : ℝ, ((⟨a, b, c⟩ : R3) = ⟨x, y, z⟩) ↔ a = x ∧ b = y ∧ c = z := by
    intro a b c x y z; exact R3.mk.injEq .. ▸ Iff.rfl
  simp [ext_iff] at this

/-! Non-vacuity of `C129_closed_iff`: the tetrahedron meets its hypotheses at the level `z = 1` and matches there; without the facet in the plane `y = 0` it
still meets them and does not match. -/

example : (dirEdges exTetra).Nodup ∧ (∀ t ∈ exTetra, t.nrm ≠ 0) ∧ WellSeparated ⟨0, 0, 1⟩ ⟨0, 0, 1⟩ exTetra ∧ MatchedAt ⟨0, 0, 1⟩ ⟨0, 0, 1⟩ exTetra :=
  ⟨exTetra_ok.1.1, exTetra_ok.2.1, exTetra_ok.2.2.2.2, fun e he _ => exTetra_ok.1.2 e he⟩

example : (dirEdges (exTetra.eraseIdx 1)).Nodup ∧ WellSeparated ⟨0, 0, 1⟩ ⟨0, 0, 1⟩ (exTetra.eraseIdx 1) ∧
    ¬ MatchedAt ⟨0, 0, 1⟩ ⟨0, 0, 1⟩ (exTetra.eraseIdx 1) := by
  have ext_iff : ∀ a b c x y z : ℝ, ((⟨a, b, c⟩ : R3) = ⟨x, y, z⟩) ↔ a = x ∧ b = y ∧ c = z := by
    intro a b c x y z; exact R3.mk.injEq .. ▸ Iff.rfl
  have sub : (dirEdges (exTetra.eraseIdx 1)).Sublist (dirEdges exTetra) := (List.eraseIdx_sublist exTetra 1).flatMap _
  refine ⟨sub.nodup exTetra_ok.1.1, fun e he f hf => exTetra_ok.2.2.2.2 e (sub.subset he) f (sub.subset hf), fun h => ?_⟩
  have e : dirEdges (exTetra.eraseIdx 1) = [(⟨0, 0, 0⟩, ⟨0, 4, 0⟩), (⟨0, 4, 0⟩, ⟨4, 0, 0⟩), (⟨4, 0, 0⟩, ⟨0, 0, 0⟩),
     (⟨4, 0, 0⟩, ⟨0, 4, 0⟩), (⟨0, 4, 0⟩, ⟨0, 0, 4⟩), (⟨0, 0, 4⟩, ⟨4, 0, 0⟩),
     (⟨0, 4, 0⟩, ⟨0, 0, 0⟩), (⟨0, 0, 0⟩, ⟨0, 0, 4⟩), (⟨0, 0, 4⟩, ⟨0, 4, 0⟩)] := rfl
  have := h (⟨0, 0, 4⟩, ⟨4, 0, 0⟩) (by rw [e]; simp) (Or.inr (by constructor <;> simp [R3.height, R3.dot] <;> norm_num))
  rw [e] at this
  simp [ext_iff] at this

end Goosli
