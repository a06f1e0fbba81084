import Verif.Props.C17
import Verif.Props.C42
import Verif.Props.C74
import Verif.Props.C04
import Verif.Props.C70
import Verif.Props.C66
import Verif.Props.C104
import Verif.Proofs.SweepJobs
/-!
# C114: how a run of the vertical slicer ends
-/
set_option linter.unusedSectionVars false
set_option autoImplicit false
namespace Goosli
open Flt

section
variable {α : Type} [Flt α]

theorem minimizeLines_ne (p : Path α) (h : p.points ≠ []) : p.minimizeLines.points ≠ [] := by
  rcases hp : p.points with _ | ⟨p0, _ | ⟨p1, _ | ⟨p2, rest⟩⟩⟩
  · exact absurd hp h
  · simp [Path.minimizeLines, hp]
  · simp [Path.minimizeLines, hp]
  · have e : p.minimizeLines.points = minimizeClose (minimizeLoop (p2 :: rest) [p0, p1] ⟨p0, p1⟩).1
        (minimizeLoop (p2 :: rest) [p0, p1] ⟨p0, p1⟩).2 := by simp [Path.minimizeLines, hp]
    obtain ⟨h1, h2, h3, h4⟩ := minimizeLoop_spec (p2 :: rest) [p0, p1] ⟨p0, p1⟩ (by simp)
    rcases minimizeClose_cases _ (minimizeLoop (p2 :: rest) [p0, p1] ⟨p0, p1⟩).2 h2 with h | ⟨hcl, core, hs, h⟩
    · rw [e, h]
      intro h0
      rw [h0] at h2
      simp at h2
    · rw [e]
      rcases h with ⟨x, hx, h⟩ | ⟨x, hx, h⟩ | ⟨x, hx, h⟩
      · rw [h]; intro h0; rw [h0] at hx; simp at hx
      · rw [h]; simp
      · rw [h]; simp

/-- the paths of a layer from a worker have points, and there are none only if the plane met no triangle -/
theorem runJob_paths (S : Sorter) (j : Job α) (l : Layer α) (h : runJob S j = .ok l) :
    (∀ p ∈ l.paths, p.points ≠ []) ∧ (l.paths = [] ↔ jobPaths j = []) ∧ l.fill = [] ∧ l.middlePs = [] ∧ l.innerPs = [] := by
  have hne : ∀ q ∈ jobPaths j, q.points ≠ [] := by
    intro q hq h; have := jobPaths_two j q hq; rw [h] at this; cases this
  obtain ⟨out, gs, ho, hp, hg, he, -, -⟩ := C13_join_conserves S (jobPaths j) hne
  have h' : runJob S j = .ok { order := j.order, norm := j.plane.n, paths := out.map Path.minimizeLines } := by
    unfold runJob joinPaths3AndMinimize
    rw [ho]; rfl
  rw [h'] at h
  injection h with h
  subst h
  refine ⟨?_, ?_, rfl, rfl, rfl⟩
  · intro p hp'
    obtain ⟨q, hq, rfl⟩ := List.mem_map.1 hp'
    refine minimizeLines_ne _ ?_
    rw [he] at hq
    obtain ⟨g, hgm, rfl⟩ := List.mem_map.1 hq
    cases g with
    | nil => exact absurd rfl (hg _ hgm)
    | cons a t =>
      have : a ∈ gs.flatten := List.mem_flatten.2 ⟨_, hgm, by simp⟩
      have := hne a (hp.mem_iff.1 this)
      simp only [concatPath]
      simp [this]
  · simp only [List.map_eq_nil_iff]
    constructor
    · rintro rfl
      cases gs with
      | nil => simpa using hp.symm
      | cons g t => simp at he
    · intro h0
      rw [h0] at hp
      have := hp.eq_nil
      cases gs with
      | nil => simpa using he
      | cons g t =>
        rw [List.flatten_eq_nil_iff] at this
        exact absurd (this g (by simp)) (hg g (by simp))

/-- what the only worker of a job of one layer gets: the triangles of the model that begin below its plane -/
def onlyJob (S : Sorter) (m : Mesh α) (Z : Vec α) (sett : Settings α) (sup : List (Triangle α)) : List (Triangle α) :=
  (sup ++ sortByMinZ S Z m.triangles).takeWhile fun t => t.minZ Z ≤? ((firstPoint m Z sett.layerHeight).toVector.dot Z)

/-- there are no layers, or there is a single one and its plane meets none of the triangles -/
def NothingToPrint (S : Sorter) (m : Mesh α) (Z : Vec α) (sett : Settings α) (sup : List (Triangle α)) : Prop :=
  layerCountOf m Z sett.layerHeight = 0 ∨ (layerCountOf m Z sett.layerHeight = 1 ∧
    ∀ t ∈ onlyJob S m Z sett sup, Plane.intersectTriangle ⟨firstPoint m Z sett.layerHeight, Z⟩ t = none)

theorem trimEmpty_nil : trimEmpty ([] : List (Layer α)) = .error .index := rfl

theorem trimEmpty_single (l : Layer α) (h : l.paths = []) : trimEmpty [l] = .error .index := by
  unfold trimEmpty
  show (do
    let layers ← if l.paths.isEmpty then goTail [l] else pure [l]
    let last ← goLast layers
    if last.paths.isEmpty then goInit layers else pure layers : Go _) = _
  rw [h]
  rfl

theorem jobPaths_nil (j : Job α) : jobPaths j = [] ↔ ∀ t ∈ j.triangles, j.plane.intersectTriangle t = none := by
  unfold jobPaths
  rw [List.filterMap_eq_nil_iff]
  simp

theorem supportsOf_fatal (S : Sorter) (m : Mesh α) (Z : Vec α) (sett : Settings α) (e : GoErr)
    (h : supportsOf S m Z sett = .error e) : e = .fatal := by
  have proj : ∀ (a : Plane α) (p : Point α) (e : GoErr), a.proectionPointToPlane p = .error e → e = .fatal := by
    intro a p e h
    unfold Plane.proectionPointToPlane at h
    dsimp only at h
    split at h
    · injection h with h; exact h.symm
    · cases h
  have lines : ∀ (ls : List (Line α)) (a : Plane α) (e : GoErr), makeSupportLines ls a = .error e → e = .fatal := by
    intro ls a e h
    unfold makeSupportLines at h
    induction ls with
    | nil => cases h
    | cons l t ih =>
      rw [List.mapM_cons] at h
      cases h1 : a.proectionPointToPlane l.p1 with
      | error e1 =>
        simp only [h1, bind, Except.bind] at h
        injection h with h
        exact h ▸ proj _ _ _ h1
      | ok q1 =>
        cases h2 : a.proectionPointToPlane l.p2 with
        | error e2 =>
          simp only [h1, h2, bind, Except.bind] at h
          injection h with h
          exact h ▸ proj _ _ _ h2
        | ok q2 =>
          simp only [h1, h2, bind, Except.bind, pure, Except.pure] at h
          split at h
          · rename_i e' he
            injection h with h
            subst h
            exact ih he
          · cases h
  unfold supportsOf at h
  split at h
  · unfold supportTriangles at h
    dsimp only at h
    cases hl : makeSupportLines (makeUndoubledLines (if sett.supportOffset =? lit 0 0 then
        filterTrianglesByColor m sett.colorizedAngle sett.unitVector
        else (filterTrianglesByColor m sett.colorizedAngle sett.unitVector).map fun t =>
          t.shift (sett.unitVector.mulScalar (-sett.supportOffset)))) ⟨(Z.mulScalar (m.minMaxZ Z).1).toPoint, Z⟩ with
    | error e' =>
      rw [hl] at h
      injection h with h
      exact h ▸ lines _ _ _ hl
    | ok r =>
      rw [hl] at h
      cases h
  · cases h

/-- what `SliceByVector` does on a mesh that is not empty -/
theorem slice_cases (S : Sorter) (A : Arrival α) (m : Mesh α) (hm : m.triangles ≠ []) (Z : Vec α) (sett : Settings α) :
    (layerCountOf m Z.normalize sett.layerHeight < 0 → sliceByVector S A (some m) Z sett = .error .makeSize) ∧
    (0 ≤ layerCountOf m Z.normalize sett.layerHeight →
      (∀ e, supportsOf S m Z.normalize sett = .error e → sliceByVector S A (some m) Z sett = .error e) ∧
      (∀ sup, supportsOf S m Z.normalize sett = .ok sup →
        (NothingToPrint S m Z.normalize sett sup → sliceByVector S A (some m) Z sett = .error .index) ∧
        (¬ NothingToPrint S m Z.normalize sett sup → ∃ layers, sliceByVector S A (some m) Z sett = .ok layers ∧
          ∀ l ∈ layers, (∀ p ∈ l.paths, p.points ≠ []) ∧ l.fill = [] ∧ l.middlePs = [] ∧ l.innerPs = []))) := by
  rw [C01_slice S A m Z sett hm]
  generalize Z.normalize = Z
  refine ⟨?_, fun h0 => ⟨?_, ?_⟩⟩
  · intro h
    unfold sliceJobs
    rw [if_pos h]; rfl
  · intro e h
    unfold sliceJobs
    rw [if_neg (by omega), h]; rfl
  · intro sup hs
    have hex : ∀ j, ∃ l : Layer α, runJob S j = .ok l := fun j => by
      obtain ⟨l, hl, _⟩ := runJob_total S j; exact ⟨l, hl⟩
    choose f hf using hex
    obtain ⟨jobs, hj⟩ : ∃ jobs, sliceJobs S m Z sett = .ok jobs := by
      unfold sliceJobs
      rw [if_neg (by omega), hs]
      exact ⟨_, rfl⟩
    have hlen := sliceJobs_length hj
    obtain ⟨-, sup', hs', hsw⟩ := sliceJobs_ok hj
    rw [hs] at hs'
    injection hs' with hs'
    subst hs'
    rw [hj]
    show (NothingToPrint S m Z sett sup → (jobs.mapM (runJob S)).bind trimEmpty = _) ∧ (_ → ∃ layers, (jobs.mapM (runJob S)).bind trimEmpty = _ ∧ _)
    rw [mapM_ok (runJob S) f jobs (fun j _ => hf j)]
    show (NothingToPrint S m Z sett sup → trimEmpty (jobs.map f) = _) ∧ (_ → ∃ layers, trimEmpty (jobs.map f) = _ ∧ _)
    have hone : layerCountOf m Z sett.layerHeight = 1 → jobs = [⟨0, ⟨firstPoint m Z sett.layerHeight, Z⟩, onlyJob S m Z sett sup⟩] := by
      intro h1
      rw [hsw, h1]
      simp [sweep, sweepStep, onlyJob]
    have hblank : layerCountOf m Z sett.layerHeight = 1 → ((∀ l, jobs.map f = [l] → l.paths = []) ↔
        ∀ t ∈ onlyJob S m Z sett sup, Plane.intersectTriangle ⟨firstPoint m Z sett.layerHeight, Z⟩ t = none) := by
      intro h1
      rw [hone h1]
      have := (runJob_paths S _ _ (hf ⟨0, ⟨firstPoint m Z sett.layerHeight, Z⟩, onlyJob S m Z sett sup⟩)).2.1
      rw [jobPaths_nil] at this
      rw [← this]
      simp
    constructor
    · rintro (h | ⟨h, hb⟩)
      · have : jobs = [] := by
          apply List.eq_nil_of_length_eq_zero
          omega
        rw [this]
        rfl
      · have := (hblank h).2 hb
        have hl : jobs.length = 1 := by omega
        obtain ⟨j, rfl⟩ := List.length_eq_one_iff.1 hl
        exact trimEmpty_single _ (this _ rfl)
    · intro hn
      unfold NothingToPrint at hn
      push Not at hn
      have h1 : jobs ≠ [] := by
        rintro rfl
        simp at hlen
        omega
      obtain ⟨layers, hl⟩ := trimEmpty_ok (jobs.map f) (by simpa using h1) (by
        intro l hl hp
        have hl1 : jobs.length = 1 := by simpa using congrArg List.length hl
        have hc : layerCountOf m Z sett.layerHeight = 1 := by omega
        obtain ⟨t, ht, hne⟩ := hn.2 hc
        refine hne ((hblank hc).1 ?_ t ht)
        intro l' hl'
        rw [hl] at hl'
        simp only [List.cons.injEq, and_true] at hl'
        rw [← hl', hp])
      refine ⟨layers, hl, ?_⟩
      obtain ⟨pre, post, he, -⟩ := trimEmpty_spec _ _ hl
      intro l hlm
      have : l ∈ jobs.map f := by rw [he]; simp [hlm]
      obtain ⟨j, -, rfl⟩ := List.mem_map.1 this
      obtain ⟨a1, -, a2⟩ := runJob_paths S j _ (hf j)
      exact ⟨a1, a2⟩

theorem jobsFrom_mem (k : Nat) (ls : List (Layer α)) (j : Spec.Job α) (h : j ∈ Spec.jobsFrom k ls) :
    ∃ k' l, l ∈ ls ∧ j ∈ Spec.layerJobs k' l := by
  induction ls generalizing k with
  | nil => cases h
  | cons l t ih =>
    rcases List.mem_append.1 h with h | h
    · exact ⟨k, l, by simp, h⟩
    · obtain ⟨k', l', h1, h2⟩ := ih _ h
      exact ⟨k', l', by simp [h1], h2⟩

theorem fill_text [FltText α] (S : Sorter) (layers : List (Layer α)) (sparse full : List (Plane α)) (sett : Settings α)
    (h : ∀ l ∈ layers, (∀ p ∈ l.paths, p.points ≠ []) ∧ l.fill = [] ∧ l.middlePs = [] ∧ l.innerPs = []) :
    ∃ out text, fillLayers S layers sparse full sett = .ok out ∧ ((Gcode.new sett.gs).addLayers out).text = .ok text := by
  obtain ⟨out, h1, h2, h3⟩ := C42_fill S layers sparse full sett (fun l hl q hq => by rw [(h l hl).2.1] at hq; cases hq)
  have hcmds : Spec.allJobs ((Gcode.new sett.gs).addLayers out).cmds = Spec.jobsFrom 0 out := by
    have : Spec.allLayers ((Gcode.new sett.gs).addLayers out).cmds = out := by
      simp [Spec.allLayers, Gcode.addLayers, Gcode.add, Gcode.new]
    unfold Spec.allJobs
    rw [this]
  obtain ⟨ls, hls⟩ := toOutput_total (sett := sett.gs) ((Gcode.new sett.gs).addLayers out).cmds (by
    rw [hcmds]
    intro j hj
    obtain ⟨k, o, hk, hj⟩ := jobsFrom_mem 0 out j hj
    obtain ⟨i, hi⟩ := List.getElem?_of_mem hk
    have hil : i < layers.length := by
      rw [← h2]
      exact (List.getElem?_eq_some_iff.1 hi).1
    obtain ⟨o', ho', -, -, e1, e2, e3, -, e4, -⟩ := h3 i _ (List.getElem?_eq_getElem hil)
    rw [hi] at ho'
    injection ho' with ho'
    subst ho'
    obtain ⟨b1, b2, b3, b4⟩ := h _ (List.getElem_mem hil)
    simp only [Spec.layerJobs, Spec.layerSections, e1, e2, e3, b3, b4, List.flatMap_cons, List.flatMap_nil, List.map_nil, List.nil_append,
      List.append_nil, List.mem_append, List.mem_map] at hj
    rcases hj with ⟨p, hp, rfl⟩ | ⟨p, hp, rfl⟩
    · exact b1 p hp
    · obtain ⟨q, hq, hpq⟩ := e4 p hp
      have hqne : q.points ≠ [] := by
        unfold fillLines at hq
        rw [b2, List.nil_append] at hq
        obtain ⟨pl, -, hpl⟩ := List.mem_flatMap.1 hq
        obtain ⟨a, b, rfl, -⟩ := intersectByPlane_points S _ pl q hpl
        simp
      show p.points ≠ []
      rcases hpq with hpq | hpq
      · rw [hpq]; exact hqne
      · rw [hpq]; simpa using hqne)
  refine ⟨out, renderAll ls, h1, ?_⟩
  have hls : ((Gcode.new sett.gs).addLayers out).toOutput = .ok ls := hls
  simp only [Gcode.text, hls, bind, Except.bind]
  rfl

end

section
variable {α : Type} [Flt α] [FltBits α] [FltText α]

/-- the planes lie across this direction -/
def upDir : Vec α := axisZ.normalize

/-- the text of the program is put between the two templates, if they are there -/
theorem withTemplates_cases (header footer : Option (List Char)) (ord : MapOrder (List Char × List Char)) (g : Gcode α) (sett : Settings α)
    (info : PrintInfo) (text : String) (h : g.text = .ok text) :
    (header = none ∨ footer = none → commandsWithTemplates header footer ord g sett info = .error .fatal) ∧
    (∀ x y, header = some x → footer = some y → ∃ t, commandsWithTemplates header footer ord g sett info = .ok t) := by
  constructor
  · intro hn
    unfold commandsWithTemplates
    cases header with
    | none => rfl
    | some x =>
      cases footer with
      | none => simp only [prepareDataFile, h, bind, Except.bind]
      | some y => simp at hn
  · rintro x y rfl rfl
    unfold commandsWithTemplates
    simp only [prepareDataFile, h, bind, Except.bind]
    exact ⟨_, rfl⟩

/-- **C114.** How `goosli --slicing_type=3axes` ends, for every arithmetic, all files and all flags: it writes the one file, or it writes
nothing and ends with `log.Fatal` (no model, a support edge that cannot be projected, a template missing, the file cannot be created), with the
panic of `make` (a negative number of layers) or with an index out of range (no layer, or a single one that is empty). It never hangs. -/
theorem C114_outcome (M : Machine α) (fuel : Nat) (read : String → Option Bytes) (template : String → Option (List Char))
    (canWrite : String → Bool) (now : String) (fl : GoosliFlags α) (h3 : fl.slicingType = "3axes") :
    ((¬ ∃ m : Mesh α, Loads (read fl.stl) m) → runGoosli M fuel read template canWrite now fl = ⟨[], .error .fatal⟩) ∧
    ∀ m₀ m : Mesh α, Loads (read fl.stl) m₀ → m = shiftLoaded m₀ fl.origin →
      (m.triangles ≠ [] → layerCountOf m upDir fl.layerHeight < 0 →
        runGoosli M fuel read template canWrite now fl = ⟨[], .error .makeSize⟩) ∧
      (m.triangles ≠ [] → 0 ≤ layerCountOf m upDir fl.layerHeight →
        (∀ e, supportsOf M.sorter m upDir fl.settings = .error e →
          runGoosli M fuel read template canWrite now fl = ⟨[], .error .fatal⟩) ∧
        (∀ sup, supportsOf M.sorter m upDir fl.settings = .ok sup → NothingToPrint M.sorter m upDir fl.settings sup →
          runGoosli M fuel read template canWrite now fl = ⟨[], .error .index⟩)) ∧
      (m.triangles = [] ∨ (0 ≤ layerCountOf m upDir fl.layerHeight ∧ ∃ sup, supportsOf M.sorter m upDir fl.settings = .ok sup ∧
          ¬ NothingToPrint M.sorter m upDir fl.settings sup) →
        ((template "data/header_template.txt" = none ∨ template "data/footer_template.txt" = none ∨ canWrite fl.out = false →
          runGoosli M fuel read template canWrite now fl = ⟨[], .error .fatal⟩) ∧
        (∀ x y, template "data/header_template.txt" = some x → template "data/footer_template.txt" = some y → canWrite fl.out = true →
          ∃ text, runGoosli M fuel read template canWrite now fl = ⟨[(fl.out, text)], .ok ()⟩))) := by
  constructor
  · intro h
    unfold runGoosli
    rw [loadMesh_fails h]
    rfl
  intro m₀ m hm hs
  have hrun : runGoosli M fuel read template canWrite now fl = finish canWrite (do
      let g ← sliceByVectorToGcode M.sorter M.arrival m axisZ fl.settings
      let text ← commandsWithTemplates (template "data/header_template.txt") (template "data/footer_template.txt") M.maps g fl.settings
        (fl.info now)
      return [(fl.out, text)]) := by
    unfold runGoosli
    rw [loadMesh_loads hm, h3, hs]
    rfl
  have herr : ∀ e, sliceByVector M.sorter M.arrival (some m) axisZ fl.settings = .error e →
      runGoosli M fuel read template canWrite now fl = ⟨[], .error e⟩ := by
    intro e he
    rw [hrun]
    unfold sliceByVectorToGcode
    rw [he]
    rfl
  have hok : ∀ layers, sliceByVector M.sorter M.arrival (some m) axisZ fl.settings = .ok layers →
      (∀ l ∈ layers, (∀ p ∈ l.paths, p.points ≠ []) ∧ l.fill = [] ∧ l.middlePs = [] ∧ l.innerPs = []) →
      ((template "data/header_template.txt" = none ∨ template "data/footer_template.txt" = none ∨ canWrite fl.out = false →
          runGoosli M fuel read template canWrite now fl = ⟨[], .error .fatal⟩) ∧
        (∀ x y, template "data/header_template.txt" = some x → template "data/footer_template.txt" = some y → canWrite fl.out = true →
          ∃ text, runGoosli M fuel read template canWrite now fl = ⟨[(fl.out, text)], .ok ()⟩)) := by
    intro layers hl hb
    obtain ⟨out, text, ho, ht⟩ := fill_text M.sorter layers (calcFillPlanes m fl.settings).1 (calcFillPlanes m fl.settings).2 fl.settings hb
    have hg : sliceByVectorToGcode M.sorter M.arrival m axisZ fl.settings = .ok ((Gcode.new fl.settings.gs).addLayers out) := by
      unfold sliceByVectorToGcode
      simp only [hl, ho, go_ok_bind]
      rfl
    rw [hrun, hg]
    simp only [go_ok_bind]
    obtain ⟨w1, w2⟩ := withTemplates_cases (template "data/header_template.txt") (template "data/footer_template.txt") M.maps
      ((Gcode.new fl.settings.gs).addLayers out) fl.settings (fl.info now) text ht
    constructor
    · intro h
      by_cases c : template "data/header_template.txt" = none ∨ template "data/footer_template.txt" = none
      · rw [w1 c]
        rfl
      · have hc : canWrite fl.out = false := by tauto
        push Not at c
        obtain ⟨x, hx⟩ := Option.ne_none_iff_exists'.1 c.1
        obtain ⟨y, hy⟩ := Option.ne_none_iff_exists'.1 c.2
        obtain ⟨t, ht⟩ := w2 x y hx hy
        rw [ht]
        show writeFiles canWrite [(fl.out, t)] = _
        simp [writeFiles, hc]
    · intro x y hx hy hc
      obtain ⟨t, ht⟩ := w2 x y hx hy
      refine ⟨t, ?_⟩
      rw [ht]
      show writeFiles canWrite [(fl.out, t)] = _
      simp [writeFiles, hc]
  refine ⟨?_, ?_, ?_⟩
  · intro hne hc
    exact herr _ ((slice_cases M.sorter M.arrival m hne axisZ fl.settings).1 hc)
  · intro hne hc
    obtain ⟨k1, k2⟩ := (slice_cases M.sorter M.arrival m hne axisZ fl.settings).2 hc
    refine ⟨fun e he => ?_, fun sup hsup hn => herr _ ((k2 sup hsup).1 hn)⟩
    have := supportsOf_fatal _ _ _ _ _ he
    subst this
    exact herr _ (k1 _ he)
  · intro h
    by_cases hne : m.triangles = []
    · refine hok [] ?_ (by simp)
      obtain ⟨ts⟩ := m
      simp only at hne
      subst hne
      rfl
    · rcases h with h | ⟨hc, sup, hsup, hn⟩
      · exact absurd h hne
      · obtain ⟨layers, hl, hb⟩ := (((slice_cases M.sorter M.arrival m hne axisZ fl.settings).2 hc).2 sup hsup).2 hn
        exact hok layers hl hb

/-- **C114, partial.** If the model is empty or gets at least two layers, the program writes the file or ends with `log.Fatal`. What is missing is the
models with fewer layers, and those where their number is negative (not a number). -/
theorem C114_ends_partial (M : Machine α) (fuel : Nat) (read : String → Option Bytes) (template : String → Option (List Char))
    (canWrite : String → Bool) (now : String) (fl : GoosliFlags α) (h3 : fl.slicingType = "3axes")
    (h : ∀ m : Mesh α, Loads (read fl.stl) m → m.triangles = [] ∨ 2 ≤ layerCountOf (shiftLoaded m fl.origin) upDir fl.layerHeight) :
    (∃ text, runGoosli M fuel read template canWrite now fl = ⟨[(fl.out, text)], .ok ()⟩) ∨
      runGoosli M fuel read template canWrite now fl = ⟨[], .error .fatal⟩ := by
  obtain ⟨k1, k2⟩ := C114_outcome M fuel read template canWrite now fl h3
  by_cases hm : ∃ m : Mesh α, Loads (read fl.stl) m
  · obtain ⟨m₀, hm⟩ := hm
    obtain ⟨-, k3, k4⟩ := k2 m₀ _ hm rfl
    have last : (shiftLoaded m₀ fl.origin).triangles = [] ∨ (0 ≤ layerCountOf (shiftLoaded m₀ fl.origin) upDir fl.layerHeight ∧
        ∃ sup, supportsOf M.sorter (shiftLoaded m₀ fl.origin) upDir fl.settings = .ok sup ∧
          ¬ NothingToPrint M.sorter (shiftLoaded m₀ fl.origin) upDir fl.settings sup) →
        (∃ text, runGoosli M fuel read template canWrite now fl = ⟨[(fl.out, text)], .ok ()⟩) ∨
          runGoosli M fuel read template canWrite now fl = ⟨[], .error .fatal⟩ := by
      intro hp
      obtain ⟨q1, q2⟩ := k4 hp
      by_cases c : template "data/header_template.txt" = none ∨ template "data/footer_template.txt" = none ∨ canWrite fl.out = false
      · exact Or.inr (q1 c)
      · push Not at c
        obtain ⟨x, hx⟩ := Option.ne_none_iff_exists'.1 c.1
        obtain ⟨y, hy⟩ := Option.ne_none_iff_exists'.1 c.2.1
        exact Or.inl (q2 x y hx hy (by simpa using c.2.2))
    by_cases hne : (shiftLoaded m₀ fl.origin).triangles = []
    · exact last (Or.inl hne)
    · rcases h m₀ hm with h0 | h2
      · refine absurd ?_ hne
        simp [shiftLoaded, Mesh.shift, h0]
      · cases hsup : supportsOf M.sorter (shiftLoaded m₀ fl.origin) upDir fl.settings with
        | error e => exact Or.inr ((k3 hne (by omega)).1 e hsup)
        | ok sup =>
          refine last (Or.inr ⟨by omega, sup, hsup, ?_⟩)
          rintro (h | ⟨h, -⟩)
          · have : layerCountOf (shiftLoaded m₀ fl.origin) upDir fl.layerHeight = 0 := h
            omega
          · have : layerCountOf (shiftLoaded m₀ fl.origin) upDir fl.layerHeight = 1 := h
            omega
  · exact Or.inr (k1 hm)

end

/-! ## float64 -/

section Float
open Classical

/-- infinite or not a number -/
def NotFinite (a : B64) : Prop := ∀ x : ℝ, a.1 ≠ .fin x

theorem XR.add_bad {a b : XR} (h : (∀ x, a ≠ .fin x) ∨ ∀ x, b ≠ .fin x) : ∀ x, a + b ≠ .fin x := by
  intro x
  show XR.add a b ≠ _
  rcases h with h | h <;> cases a <;> cases b <;> simp_all [XR.add]

theorem XR.mul_bad {a b : XR} (h : ∀ x, a ≠ .fin x) : ∀ x, a * b ≠ .fin x := by
  intro x
  show XR.mul a b ≠ _
  cases a <;> cases b <;> simp_all [XR.mul, XR.infSign] <;> split_ifs <;> simp

theorem XR.div_bad {a b : XR} (h : ∀ x, a ≠ .fin x) : ∀ x, a / b ≠ .fin x := by
  intro x
  show XR.div a b ≠ _
  cases a <;> cases b <;> simp_all [XR.div, XR.infSign] <;> split_ifs <;> simp

theorem rnd_bad {a : XR} (h : ∀ x, a ≠ .fin x) : NotFinite (B64.rnd a) := by
  intro x
  show B64.rndVal a ≠ _
  cases a <;> simp_all [B64.rndVal]

theorem NotFinite.add_left {a b : B64} (h : NotFinite a) : NotFinite (a + b) := rnd_bad (XR.add_bad (Or.inl h))
theorem NotFinite.add_right {a b : B64} (h : NotFinite b) : NotFinite (a + b) := rnd_bad (XR.add_bad (Or.inr h))
theorem NotFinite.mul_left {a b : B64} (h : NotFinite a) : NotFinite (a * b) := rnd_bad (XR.mul_bad h)
theorem NotFinite.div_left {a b : B64} (h : NotFinite a) : NotFinite (a / b) := rnd_bad (XR.div_bad h)

theorem NotFinite.ceil {a : B64} (h : NotFinite a) : NotFinite (Flt.ceil a) := by
  refine rnd_bad fun x => ?_
  obtain ⟨a, ha⟩ := a
  have h : ∀ x, a ≠ .fin x := h
  show XR.lift _ _ _ a ≠ _
  cases a <;> simp_all [XR.lift]

theorem NotFinite.toInt {a : B64} (h : NotFinite a) : Flt.toInt a < 0 := by
  obtain ⟨a, ha⟩ := a
  have h : ∀ x, a ≠ .fin x := h
  show XR.toInt a < 0
  cases a <;> simp_all [XR.toInt]

/-- the smallest or the largest height is lost -/
def Lost (q : B64 × B64) : Prop := (q.1.1 = .nan ∨ q.1.1 = .ninf) ∨ (q.2.1 = .nan ∨ q.2.1 = .pinf)

theorem Lost.diff {q : B64 × B64} (h : Lost q) : NotFinite (q.2 - q.1) := by
  refine rnd_bad fun x => ?_
  obtain ⟨⟨a, ha⟩, ⟨b, hb⟩⟩ := q
  have h : (a = .nan ∨ a = .ninf) ∨ (b = .nan ∨ b = .pinf) := h
  show XR.add b (XR.neg a) ≠ _
  rcases h with (rfl | rfl) | (rfl | rfl)
  · cases b <;> simp [XR.add, XR.neg]
  · cases b <;> simp [XR.add, XR.neg]
  · simp [XR.add]
  · cases a <;> simp [XR.add, XR.neg]

theorem fmin_lost {a b : B64} (h : (a.1 = .nan ∨ a.1 = .ninf) ∨ (b.1 = .nan ∨ b.1 = .ninf)) :
    (Flt.fmin a b).1 = .nan ∨ (Flt.fmin a b).1 = .ninf := by
  obtain ⟨a, ha⟩ := a
  obtain ⟨b, hb⟩ := b
  have h : (a = .nan ∨ a = .ninf) ∨ (b = .nan ∨ b = .ninf) := h
  show B64.rndVal (XR.fmin a b) = _ ∨ B64.rndVal (XR.fmin a b) = _
  rcases h with (rfl | rfl) | (rfl | rfl)
  · cases b <;> simp [XR.fmin, B64.rndVal]
  · simp [XR.fmin, B64.rndVal]
  · cases a <;> simp [XR.fmin, B64.rndVal]
  · cases a <;> simp [XR.fmin, B64.rndVal]

theorem fmax_lost {a b : B64} (h : (a.1 = .nan ∨ a.1 = .pinf) ∨ (b.1 = .nan ∨ b.1 = .pinf)) :
    (Flt.fmax a b).1 = .nan ∨ (Flt.fmax a b).1 = .pinf := by
  obtain ⟨a, ha⟩ := a
  obtain ⟨b, hb⟩ := b
  have h : (a = .nan ∨ a = .pinf) ∨ (b = .nan ∨ b = .pinf) := h
  show B64.rndVal (XR.fmax a b) = _ ∨ B64.rndVal (XR.fmax a b) = _
  rcases h with (rfl | rfl) | (rfl | rfl)
  · cases b <;> simp [XR.fmax, B64.rndVal]
  · simp [XR.fmax, B64.rndVal]
  · cases a <;> simp [XR.fmax, B64.rndVal]
  · cases a <;> simp [XR.fmax, B64.rndVal]

theorem NotFinite.cases {a : B64} (h : NotFinite a) : (a.1 = .nan ∨ a.1 = .ninf) ∨ (a.1 = .nan ∨ a.1 = .pinf) := by
  obtain ⟨a, ha⟩ := a
  have h : ∀ x, a ≠ .fin x := h
  show (a = .nan ∨ a = .ninf) ∨ (a = .nan ∨ a = .pinf)
  cases a <;> simp_all

/-- the point has a coordinate that is infinite or not a number -/
def Point.Broken (p : Point B64) : Prop := NotFinite p.x ∨ NotFinite p.y ∨ NotFinite p.z

/-- so has one of the corners of the triangle -/
def Triangle.Broken (t : Triangle B64) : Prop := t.p1.Broken ∨ t.p2.Broken ∨ t.p3.Broken

theorem Point.Broken.shift {p : Point B64} (h : p.Broken) (v : Vec B64) : (p.shift v).Broken := by
  rcases h with h | h | h
  · exact Or.inl h.add_left
  · exact Or.inr (Or.inl h.add_left)
  · exact Or.inr (Or.inr h.add_left)

theorem Triangle.Broken.shift {t : Triangle B64} (h : t.Broken) (v : Vec B64) : (t.shift v).Broken := by
  rcases h with h | h | h
  · exact Or.inl (h.shift v)
  · exact Or.inr (Or.inl (h.shift v))
  · exact Or.inr (Or.inr (h.shift v))

theorem Point.Broken.dot {p : Point B64} (h : p.Broken) (v : Vec B64) : NotFinite (p.toVector.dot v) := by
  show NotFinite (p.x * v.x + p.y * v.y + p.z * v.z)
  rcases h with h | h | h
  · exact h.mul_left.add_left.add_left
  · exact h.mul_left.add_right.add_left
  · exact h.mul_left.add_right

theorem Triangle.Broken.lost {t : Triangle B64} (h : t.Broken) (v : Vec B64) : Lost (t.minMaxZ v) := by
  unfold Lost Triangle.minMaxZ
  dsimp only
  rcases h with h | h | h
  · rcases (h.dot v).cases with c | c
    · exact Or.inl (fmin_lost (Or.inl c))
    · exact Or.inr (fmax_lost (Or.inl c))
  · rcases (h.dot v).cases with c | c
    · exact Or.inl (fmin_lost (Or.inr (fmin_lost (Or.inl c))))
    · exact Or.inr (fmax_lost (Or.inr (fmax_lost (Or.inl c))))
  · rcases (h.dot v).cases with c | c
    · exact Or.inl (fmin_lost (Or.inr (fmin_lost (Or.inr c))))
    · exact Or.inr (fmax_lost (Or.inr (fmax_lost (Or.inr c))))

theorem minMaxZ_lost {ts : List (Triangle B64)} {t : Triangle B64} (hm : t ∈ ts) (h : t.Broken) (v : Vec B64) :
    Lost ((Mesh.mk ts).minMaxZ v) := by
  unfold Mesh.minMaxZ
  rw [if_neg (by cases ts <;> simp_all)]
  have keep : ∀ (us : List (Triangle B64)) (q : B64 × B64), Lost q →
      Lost (us.foldl (fun acc t => (Flt.fmin acc.1 (t.minMaxZ v).1, Flt.fmax acc.2 (t.minMaxZ v).2)) q) := by
    intro us
    induction us with
    | nil => intro q hq; exact hq
    | cons u us ih =>
      intro q hq
      refine ih _ ?_
      rcases hq with hq | hq
      · exact Or.inl (fmin_lost (Or.inl hq))
      · exact Or.inr (fmax_lost (Or.inl hq))
  have all : ∀ (us : List (Triangle B64)) (q : B64 × B64), t ∈ us →
      Lost (us.foldl (fun acc t => (Flt.fmin acc.1 (t.minMaxZ v).1, Flt.fmax acc.2 (t.minMaxZ v).2)) q) := by
    intro us
    induction us with
    | nil => intro q hq; cases hq
    | cons u us ih =>
      intro q hq
      rcases List.mem_cons.1 hq with rfl | hq
      · rw [List.foldl_cons]
        refine keep us _ ?_
        rcases h.lost v with hq | hq
        · exact Or.inl (fmin_lost (Or.inr hq))
        · exact Or.inr (fmax_lost (Or.inr hq))
      · exact ih _ hq
  exact all ts _ hm

/-- **C114, the claim fails.** A model with a single coordinate that is infinite or not a number is not refused: whatever the flags and the
files, `goosli` panics in `make`. -/
theorem C114_broken (M : Machine B64) (fuel : Nat) (read : String → Option Bytes) (template : String → Option (List Char))
    (canWrite : String → Bool) (now : String) (fl : GoosliFlags B64) (h3 : fl.slicingType = "3axes") (m : Mesh B64)
    (hm : Loads (read fl.stl) m) (t : Triangle B64) (ht : t ∈ m.triangles) (hb : t.Broken) :
    runGoosli M fuel read template canWrite now fl = ⟨[], .error .makeSize⟩ := by
  have ht' : t.shift fl.origin ∈ (shiftLoaded m fl.origin).triangles := List.mem_map.2 ⟨t, ht, rfl⟩
  refine ((C114_outcome M fuel read template canWrite now fl h3).2 m _ hm rfl).1 (List.ne_nil_of_mem ht') ?_
  have hl := minMaxZ_lost ht' (hb.shift fl.origin) upDir
  exact hl.diff.div_left.ceil.toInt

/-- the same for the bytes of a binary file: one coordinate word with all bits of the exponent set is enough -/
theorem C114_violated (M : Machine B64) (fuel : Nat) (read : String → Option Bytes) (template : String → Option (List Char))
    (canWrite : String → Bool) (now : String) (fl : GoosliFlags B64) (h3 : fl.slicingType = "3axes") (b : Bytes)
    (hb : read fl.stl = some b) (hlen : b.length = 84 + 50 * wordAt b 80) (i j : ℕ) (hi : i < wordAt b 80) (hj : j < 9)
    (hw : ¬ finiteWord (wordAt b (coordOffset i j))) :
    runGoosli M fuel read template canWrite now fl = ⟨[], .error .makeSize⟩ := by
  obtain ⟨t, h1, h2⟩ := binary_coords (α := B64) b (wordAt b 80) i j hi hj
  have hbad : NotFinite (FltBits.ofBits (BitVec.ofNat 32 (wordAt b (coordOffset i j))) : B64) := by
    intro x
    have hn := wordAt_lt b (coordOffset i j)
    generalize wordAt b (coordOffset i j) = n at hw hn
    have ht : (BitVec.ofNat 32 n).toNat = n := by rw [BitVec.toNat_ofNat, Nat.mod_eq_of_lt hn]
    show wordVal (BitVec.ofNat 32 n) ≠ _
    unfold wordVal
    rw [if_pos (by unfold wordExp; rw [ht]; unfold finiteWord at hw; push Not at hw; simpa using hw)]
    split_ifs <;> simp
  refine C114_broken M fuel read template canWrite now fl h3 _ ⟨b, hb, (C04_binary b hlen).1⟩ t (List.mem_of_getElem? h1) ?_
  unfold Triangle.coords at h2
  interval_cases j <;> simp only [List.getElem?_cons_zero, List.getElem?_cons_succ, Option.some.injEq] at h2 <;> rw [← h2] at hbad
  · exact Or.inl (Or.inl hbad)
  · exact Or.inl (Or.inr (Or.inl hbad))
  · exact Or.inl (Or.inr (Or.inr hbad))
  · exact Or.inr (Or.inl (Or.inl hbad))
  · exact Or.inr (Or.inl (Or.inr (Or.inl hbad)))
  · exact Or.inr (Or.inl (Or.inr (Or.inr hbad)))
  · exact Or.inr (Or.inr (Or.inl hbad))
  · exact Or.inr (Or.inr (Or.inr (Or.inl hbad)))
  · exact Or.inr (Or.inr (Or.inr (Or.inr hbad)))

theorem rep_double {x : ℝ} (h : Rep x) (k : ℕ) : Rep (2 ^ k * x) := by
  obtain ⟨m, e, h1, h2, h3⟩ := h
  refine ⟨m, e + k, h1, by omega, ?_⟩
  rw [h3, zpow_add₀ (by norm_num), zpow_natCast]
  ring

/-- the number of layers of a model that is finite and at least two layers high -/
theorem count_two {ts : List RTri} {lo hi t : ℝ} (hF : ∀ w ∈ allVerts ts, w.isF) (he : Extent ts zUp lo hi) (tF : IsF t) (t0 : 0 < t)
    (hmax : hi - lo ≤ XR.maxF64R) (h2 : 2 * t ≤ hi - lo) (h62 : hi - lo ≤ 2 ^ 62 * t) :
    2 ≤ layerCountOf (fmesh ts) zUp.f64v (B64.of t) := by
  have hlo : IsF lo := by
    obtain ⟨w, hw, hwe⟩ := he.1.1
    rw [dot_zUp] at hwe
    rw [← hwe]
    exact (hF w hw).2.2
  have hhi : IsF hi := by
    obtain ⟨w, hw, hwe⟩ := he.2.1
    rw [dot_zUp] at hwe
    rw [← hwe]
    exact (hF w hw).2.2
  have r2 : Rep (2 * t) := by
    simpa using rep_double tF.1 1
  have r62 : Rep (2 ^ 62 * t) := by
    exact rep_double tF.1 62
  have r0 : Rep (2 ^ 62) := by simpa using rep_zpow (e := 62) (by norm_num)
  have d1 : 2 * t ≤ rd (hi - lo) := le_rd r2 h2
  have d2 : rd (hi - lo) ≤ 2 ^ 62 * t := rd_le r62 h62
  have dF : IsF (rd (hi - lo)) := IsF.rd (by rw [abs_of_nonneg (by linarith)]; exact hmax)
  have q1 : 2 ≤ rd (hi - lo) / t := by rw [le_div_iff₀ t0]; exact d1
  have q2 : rd (hi - lo) / t ≤ 2 ^ 62 := by rw [div_le_iff₀ t0]; exact d2
  have e1 : 2 ≤ rd (rd (hi - lo) / t) := le_rd (by simpa using rep_int (n := 2) (by norm_num)) q1
  have e2 : rd (rd (hi - lo) / t) ≤ 2 ^ 62 := rd_le r0 q2
  have qF : IsF (rd (rd (hi - lo) / t)) := isF_rep (rep_rd _) (by rw [abs_of_nonneg (by linarith)]; exact e2.trans (by norm_num))
  unfold layerCountOf
  rw [minMaxZ_f64 hF he]
  simp only
  rw [B64.sub_of hhi hlo, B64.div_of dF tF t0.ne', B64.ceil_of qF]
  have c1 : 2 ≤ ⌈rd (rd (hi - lo) / t)⌉ := by
    have : ((1 : ℤ) : ℝ) < rd (rd (hi - lo) / t) := by push_cast; linarith
    exact Int.lt_ceil.2 this
  have c2 : ⌈rd (rd (hi - lo) / t)⌉ ≤ 2 ^ 62 := Int.ceil_le.2 (e2.trans (by norm_num))
  generalize ⌈rd (rd (hi - lo) / t)⌉ = c at c1 c2
  have g1 : 2 ≤ rd (c : ℝ) := le_rd (by simpa using rep_int (n := 2) (by norm_num)) (by exact_mod_cast c1)
  have g2 : rd (c : ℝ) ≤ 2 ^ 62 := rd_le r0 (by exact_mod_cast c2)
  rw [← B64.of_rd, B64.toInt_of (isF_rep (rep_rd _) (by rw [abs_of_nonneg (by linarith)]; exact g2.trans (by norm_num)))]
  unfold XR.toInt
  simp only
  rw [if_pos (by linarith : (0 : ℝ) ≤ rd (c : ℝ))]
  have f1 : 2 ≤ ⌊rd (c : ℝ)⌋ := Int.le_floor.2 (by push_cast; exact g1)
  have f2 : ⌊rd (c : ℝ)⌋ ≤ 2 ^ 62 := by
    have : ((⌊rd (c : ℝ)⌋ : ℤ) : ℝ) ≤ ((2 ^ 62 : ℤ) : ℝ) := (Int.floor_le _).trans (g2.trans (by norm_num))
    exact_mod_cast this
  rw [if_pos ⟨by linarith, by linarith⟩]
  exact f1

/-- **C114, float64.** Every model whose coordinates, moved by the origin, are finite and which is at least two layers high (and at most `2^62`) is
sliced and written, whatever its triangles are; supports off, templates and file at hand. -/
theorem C114_written (M : Machine B64) (fuel : ℕ) (read : String → Option Bytes) (template : String → Option (List Char))
    (canWrite : String → Bool) (now : String) (fl : GoosliFlags B64) (ts0 : List RTri) (o : R3) (lo hi t : ℝ)
    (hread : Loads (read fl.stl) (fmesh ts0)) (hF : ∀ w ∈ allVerts ts0, w.isF) (hty : fl.slicingType = "3axes") (ho : o.isF)
    (horg : fl.origin = o.f64v) (hout : canWrite fl.out = true) (htop : (template "data/header_template.txt").isSome)
    (hbot : (template "data/footer_template.txt").isSome) (hF' : ∀ w ∈ allVerts (ts0.map (RTri.movedF o)), w.isF)
    (he : Extent (ts0.map (RTri.movedF o)) zUp lo hi) (tF : IsF t) (t0 : 0 < t) (ht : fl.layerHeight = B64.of t) (hs : fl.supportsOn = false)
    (hmax : hi - lo ≤ XR.maxF64R) (h2 : 2 * t ≤ hi - lo) (h62 : hi - lo ≤ 2 ^ 62 * t) :
    ∃ text, runGoosli M fuel read template canWrite now fl = ⟨[(fl.out, text)], .ok ()⟩ := by
  obtain ⟨x, hx⟩ := Option.isSome_iff_exists.1 htop
  obtain ⟨y, hy⟩ := Option.isSome_iff_exists.1 hbot
  have hc := count_two hF' he tF t0 hmax h2 h62
  have hd : (upDir : Vec B64) = zUp.f64v := by unfold upDir; rw [axisZ_f64, normalize_up]
  refine (((C114_outcome M fuel read template canWrite now fl hty).2 _ _ hread rfl).2.2 (Or.inr ?_)).2 x y hx hy hout
  rw [horg, shiftLoaded_f64 ho hF, hd, ht]
  refine ⟨by omega, [], by
    unfold supportsOf
    rw [if_neg (show ¬ fl.settings.supportsOn = true by show ¬ fl.supportsOn = true; rw [hs]; simp)]
    rfl, ?_⟩
  rintro (h | ⟨h, -⟩)
  · have h : layerCountOf (fmesh (ts0.map (RTri.movedF o))) zUp.f64v fl.layerHeight = 0 := h
    rw [ht] at h
    omega
  · have h : layerCountOf (fmesh (ts0.map (RTri.movedF o))) zUp.f64v fl.layerHeight = 1 := h
    rw [ht] at h
    omega

/-- flags for a vertical slice in layers of one millimetre -/
private noncomputable def exFlags : GoosliFlags B64 :=
  ⟨"in.stl", "out.gcode", (⟨0, 0, 0⟩ : R3).f64v, (⟨0, 0, 0⟩ : R3).f64, B64.of 10, B64.of 1, B64.of 1, 20, 1, 1, 60, 200, 50, 30, 40, false,
    B64.of (1 / 2), "Squares", false, 20, B64.of 5, "planes.txt", "3axes", B64.of 30, zUp.f64v, false, B64.of 1, B64.of 2, B64.of 1, 3⟩

/-! Non-vacuity: the tetrahedron of height 4 is written; with one word replaced by infinity it is not. -/

example (M : Machine B64) (fuel : ℕ) (now : String) :
    ∃ text, runGoosli M fuel (fun _ => some (saveSTL (fmesh exTetra))) (fun _ => some []) (fun _ => true) now exFlags =
      ⟨[("out.gcode", text)], .ok ()⟩ := by
  have em := movedF_zero (ts := exTetra) exTetra_safe.isF
  refine C114_written M fuel _ _ _ now exFlags exTetra ⟨0, 0, 0⟩ 0 4 1 exTetra_loads exTetra_safe.isF rfl ⟨isF_zero, isF_zero, isF_zero⟩ rfl rfl rfl
    rfl (by rw [em]; exact exTetra_safe.isF) (by rw [em]; exact exTetra_extentF) isF_one (by norm_num) rfl rfl ?_ (by norm_num) (by norm_num)
  exact le_trans (by norm_num) big_le_max

example (M : Machine B64) (fuel : ℕ) (now : String) :
    runGoosli M fuel (fun _ => some (List.replicate 80 0 ++ ([1, 0, 0, 0] ++ (List.replicate 12 0 ++ ([0, 0, 128, 127] ++ List.replicate 34 0)))))
      (fun _ => some []) (fun _ => true) now exFlags = ⟨[], .error .makeSize⟩ := by
  have e1 : wordAt (List.replicate 80 0 ++ ([1, 0, 0, 0] ++ (List.replicate 12 0 ++ ([0, 0, 128, 127] ++ List.replicate 34 0)))) 80 = 1 := by
    decide +kernel
  refine C114_violated M fuel _ _ _ now exFlags rfl _ rfl (by rw [e1]; simp) 0 0 (by rw [e1]; norm_num) (by norm_num) ?_
  have e2 : wordAt (List.replicate 80 0 ++ ([1, 0, 0, 0] ++ (List.replicate 12 0 ++ ([0, 0, 128, 127] ++ List.replicate 34 0)))) (coordOffset 0 0) =
      2139095040 := by
    decide +kernel
  rw [e2]
  unfold finiteWord
  norm_num

end Float
end Goosli
