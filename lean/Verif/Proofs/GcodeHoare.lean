import Verif.Proofs.Base
import Verif.Spec.Program
/-!
# Induction over the G-code emission

`Rules` collects the preservation conditions for an invariant relating what has been printed so far, the program
state and any machine that consumes the emitted lines; `Rules.sound` runs the induction once for all properties.
-/
set_option linter.unusedSectionVars false
namespace Goosli
open Flt Spec

variable {α : Type} [Flt α]

/-- run a machine over emitted lines -/
def runLines {M : Type} (exec : M → GLine α → M) (m : M) (ls : List (GLine α)) : M := ls.foldl exec m

omit [Flt α] in
@[simp] theorem runLines_nil {M : Type} (exec : M → GLine α → M) (m : M) : runLines exec m [] = m := rfl
omit [Flt α] in
@[simp] theorem runLines_cons {M : Type} (exec : M → GLine α → M) (m : M) (a : GLine α) (l : List (GLine α)) :
    runLines exec m (a :: l) = runLines exec (exec m a) l := rfl
omit [Flt α] in
@[simp] theorem runLines_append {M : Type} (exec : M → GLine α → M) (m : M) (a l : List (GLine α)) :
    runLines exec m (a ++ l) = runLines exec (runLines exec m a) l := List.foldl_append

/-- preservation conditions; `I` holds between layers, `K` inside a layer, `J` inside a section -/
structure Rules (sett : GcodeSettings α) {M : Type} (exec : M → GLine α → M)
    (Good : Job α → Prop) (GoodC : Command α → Prop)
    (I : List (Job α) → GState α → M → Prop)
    (K : List (Job α) → GState α → M → Prop)
    (J : String → List (Job α) → GState α → M → Prop) : Prop where
  start : ∀ done st m, I done st m →
    K done (switchFanGCode st sett).2 (runLines exec m ([.layer st.layerIndex] ++ (switchFanGCode st sett).1))
  wall : ∀ done st m b, K done st m → K done { st with isWall := b } m
  sect : ∀ done st m c, K done st m →
    (c, st.isWall) ∈ [("OUTER_PATHES", true), ("MIDDLE_PATHES", true), ("INNER_PATHES", true), ("FILL_PATHES", false)] →
    J c done (printSpeedToGCode st sett).2 (runLines exec m ([.comment c] ++ (printSpeedToGCode st sett).1))
  path : ∀ c done st m p r (k : Nat), J c done st m → st.layerIndex = k → Good ⟨k, c, p⟩ →
    pathToGCode p sett st = .ok r → J c (done ++ [⟨k, c, p⟩]) r.2 (runLines exec m r.1)
  leave : ∀ c done st m, J c done st m → K done st m
  finish : ∀ done st m, K done st m →
    I done { (decreaseEOff st).2 with layerIndex := (decreaseEOff st).2.layerIndex + 1 }
      (runLines exec m (decreaseEOff st).1)
  cmd : ∀ done st m (c : Command α) r, I done st m → (∀ ls, c ≠ .layersMoving ls) → GoodC c →
    c.toGCode st sett = .ok r → I done r.2 (runLines exec m r.1)

/-- facts about the state that every proof needs -/
theorem switchFan_layerIndex (st : GState α) (sett) : (switchFanGCode st sett).2.layerIndex = st.layerIndex := by
  unfold switchFanGCode; split <;> split <;> rfl

theorem printSpeed_layerIndex (st : GState α) (sett) : (printSpeedToGCode st sett).2.layerIndex = st.layerIndex := by
  unfold printSpeedToGCode; dsimp only; split <;> rfl

theorem printSpeed_isWall (st : GState α) (sett) : (printSpeedToGCode st sett).2.isWall = st.isWall := by
  unfold printSpeedToGCode; dsimp only; split <;> rfl

theorem decreaseEOff_layerIndex (st : GState α) : (decreaseEOff st).2.layerIndex = st.layerIndex := by
  unfold decreaseEOff; split <;> rfl

theorem pathToGCode_frame {p : Path α} {sett st r} (h : pathToGCode p sett st = .ok r) :
    r.2.layerIndex = st.layerIndex ∧ r.2.isWall = st.isWall ∧ r.2.fan = st.fan ∧ r.2.feedrate = st.feedrate ∧
      r.2.t1 = st.t1 ∧ r.2.t2 = st.t2 := by
  unfold pathToGCode at h
  cases hf : goAt p.points 0 <;> simp only [hf, bind, Except.bind] at h
  · cases h
  cases hl : goLast p.points <;> simp only [hl] at h
  · cases h
  simp only [pure, Except.pure, Except.ok.injEq] at h
  subst h; simp

theorem bind_ok {β γ : Type} {x : Go β} {f : β → Go γ} {c : γ} (h : (x >>= f) = .ok c) :
    ∃ b, x = .ok b ∧ f b = .ok c := by
  cases x with
  | error e => simp [bind, Except.bind] at h
  | ok b => exact ⟨b, rfl, h⟩

theorem pure_ok {β : Type} {a b : β} (h : (pure a : Go β) = .ok b) : a = b := by
  simpa [pure, Except.pure] using h

variable {sett : GcodeSettings α} {M : Type} {exec : M → GLine α → M} {Good : Job α → Prop} {GoodC : Command α → Prop}
  {I K : List (Job α) → GState α → M → Prop} {J : String → List (Job α) → GState α → M → Prop}

theorem Rules.paths (R : Rules sett exec Good GoodC I K J) (c : String) (ps : List (Path α)) :
    ∀ done st m r (k : Nat), J c done st m → st.layerIndex = k → (∀ p ∈ ps, Good ⟨k, c, p⟩) →
      pathsLoop sett ps st = .ok r →
      J c (done ++ ps.map fun p => ⟨k, c, p⟩) r.2 (runLines exec m r.1) ∧ r.2.layerIndex = k ∧
        r.2.isWall = st.isWall := by
  induction ps with
  | nil =>
    intro done st m r k h hk _ hr
    have := pure_ok hr; subst this
    simpa [hk] using h
  | cons p ps ih =>
    intro done st m r k h hk hg hr
    obtain ⟨r1, h1, hr⟩ := bind_ok hr
    obtain ⟨r2, h2, hr⟩ := bind_ok hr
    have := pure_ok hr; subst this
    have hf := pathToGCode_frame h1
    have hj := R.path c done st m p r1 k h hk (hg p (by simp)) h1
    have := ih _ _ _ r2 k hj (hf.1.trans hk) (fun q hq => hg q (by simp [hq])) h2
    simpa [hf.2.1] using this

theorem Rules.section (R : Rules sett exec Good GoodC I K J) (c : String) (ps : List (Path α)) :
    ∀ done st m r (k : Nat), K done st m → st.layerIndex = k → (∀ p ∈ ps, Good ⟨k, c, p⟩) →
      (c, st.isWall) ∈
        [("OUTER_PATHES", true), ("MIDDLE_PATHES", true), ("INNER_PATHES", true), ("FILL_PATHES", false)] →
      pathesToGCode ps c sett st = .ok r →
      K (done ++ ps.map fun p => ⟨k, c, p⟩) r.2 (runLines exec m r.1) ∧ r.2.layerIndex = k ∧
        r.2.isWall = st.isWall := by
  intro done st m r k h hk hg hc hr
  obtain ⟨r1, h1, hr⟩ := bind_ok hr
  have := pure_ok hr; subst this
  have hj := R.sect done st m c h hc
  have := R.paths c ps _ _ _ r1 k hj ((printSpeed_layerIndex st sett).trans hk) hg h1
  refine ⟨?_, this.2.1, this.2.2.trans (printSpeed_isWall st sett)⟩
  have h3 := R.leave _ _ _ _ this.1
  simpa using h3

theorem Rules.layer (R : Rules sett exec Good GoodC I K J) (l : Layer α) :
    ∀ done st m r (k : Nat), I done st m → st.layerIndex = k → (∀ j ∈ layerJobs k l, Good j) →
      layerToGCode l sett st = .ok r →
      I (done ++ layerJobs k l) r.2 (runLines exec m r.1) ∧ r.2.layerIndex = (k + 1 : Nat) := by
  intro done st m r k h hk hg hr
  obtain ⟨o, ho, hr⟩ := bind_ok hr
  obtain ⟨mi, hm, hr⟩ := bind_ok hr
  obtain ⟨n, hn, hr⟩ := bind_ok hr
  obtain ⟨f, hf, hr⟩ := bind_ok hr
  have := pure_ok hr; subst this
  have g : ∀ c ps, (c, ps) ∈ layerSections l → ∀ p ∈ ps, Good ⟨k, c, p⟩ := by
    intro c ps hc p hp
    apply hg
    simp only [layerJobs, List.mem_flatMap, List.mem_map]
    exact ⟨(c, ps), hc, p, hp, rfl⟩
  have h0 := R.wall _ _ _ true (R.start done st m h)
  have hk0 : (switchFanGCode st sett).2.layerIndex = k := (switchFan_layerIndex st sett).trans hk
  have h1 := R.section _ _ _ _ _ _ k h0 hk0 (g "OUTER_PATHES" l.paths (by simp [layerSections])) (by simp) ho
  have h2 := R.section _ _ _ _ _ _ k h1.1 h1.2.1 (g "MIDDLE_PATHES" l.middlePs (by simp [layerSections]))
    (by simp [h1.2.2]) hm
  have h3 := R.section _ _ _ _ _ _ k h2.1 h2.2.1 (g "INNER_PATHES" l.innerPs (by simp [layerSections]))
    (by simp [h1.2.2, h2.2.2]) hn
  have h4 := R.section _ _ _ _ _ _ k (R.wall _ _ _ false h3.1) h3.2.1
    (g "FILL_PATHES" l.fill (by simp [layerSections])) (by simp) hf
  have h5 := R.finish _ _ _ h4.1
  refine ⟨?_, ?_⟩
  · simpa [layerJobs, layerSections] using h5
  · show (decreaseEOff f.2).2.layerIndex + 1 = _
    rw [decreaseEOff_layerIndex, h4.2.1]; rfl

theorem Rules.layers (R : Rules sett exec Good GoodC I K J) (ls : List (Layer α)) :
    ∀ done st m r (k : Nat), I done st m → st.layerIndex = k → (∀ j ∈ jobsFrom k ls, Good j) →
      layersToGCode sett ls st = .ok r →
      I (done ++ jobsFrom k ls) r.2 (runLines exec m r.1) ∧ r.2.layerIndex = (k + ls.length : Nat) := by
  induction ls with
  | nil =>
    intro done st m r k h hk _ hr
    have := pure_ok hr; subst this
    simpa [hk, jobsFrom] using h
  | cons l ls ih =>
    intro done st m r k h hk hg hr
    obtain ⟨r1, h1, hr⟩ := bind_ok hr
    obtain ⟨r2, h2, hr⟩ := bind_ok hr
    have := pure_ok hr; subst this
    have hj := R.layer l done st m r1 k h hk (fun j hj => hg j (by simp [jobsFrom, hj])) h1
    have := ih _ _ _ r2 (k + 1) hj.1 hj.2 (fun j hj => hg j (by simp [jobsFrom, hj])) h2
    refine ⟨by simpa [jobsFrom] using this.1, ?_⟩
    rw [this.2, List.length_cons]; congr 1; omega

theorem cmd_frame {c : Command α} {st r} (hc : ∀ ls, c ≠ .layersMoving ls) (h : c.toGCode st sett = .ok r) :
    r.2.layerIndex = st.layerIndex := by
  cases c <;> simp [Command.toGCode] at h <;> first | (subst h; rfl) | exact absurd rfl (hc _)

omit [Flt α] in
theorem jobsFrom_append (k : Nat) (a b : List (Layer α)) :
    jobsFrom k (a ++ b) = jobsFrom k a ++ jobsFrom (k + a.length) b := by
  induction a generalizing k with
  | nil => simp [jobsFrom]
  | cons x t ih =>
    simp only [List.cons_append, jobsFrom, ih, List.append_assoc, List.length_cons]
    rw [show k + 1 + t.length = k + (t.length + 1) from by omega]

theorem Rules.cmds (R : Rules sett exec Good GoodC I K J) (cs : List (Command α)) :
    ∀ done st m r (k : Nat), I done st m → st.layerIndex = k → (∀ j ∈ jobsFrom k (allLayers cs), Good j) →
      (∀ c ∈ cs, GoodC c) → cmdsToGCode sett cs st = .ok r →
      I (done ++ jobsFrom k (allLayers cs)) r.2 (runLines exec m r.1) ∧
        r.2.layerIndex = (k + (allLayers cs).length : Nat) := by
  induction cs with
  | nil =>
    intro done st m r k h hk _ _ hr
    have := pure_ok hr; subst this
    simpa [hk, jobsFrom, allLayers] using h
  | cons c cs ih =>
    intro done st m r k h hk hg hgc hr
    obtain ⟨r1, h1, hr⟩ := bind_ok hr
    obtain ⟨r2, h2, hr⟩ := bind_ok hr
    have := pure_ok hr; subst this
    by_cases hc : ∃ ls, c = .layersMoving ls
    · obtain ⟨ls, rfl⟩ := hc
      have e : allLayers (.layersMoving ls :: cs) = ls ++ allLayers cs := by simp [allLayers]
      rw [e, jobsFrom_append] at hg ⊢
      have hj := R.layers ls done st m r1 k h hk (fun j hj => hg j (by simp [hj])) h1
      have := ih _ _ _ r2 _ hj.1 hj.2 (fun j hj => hg j (by simp [hj])) (fun c hc => hgc c (by simp [hc])) h2
      refine ⟨by simpa using this.1, ?_⟩
      rw [this.2, List.length_append]; congr 1; omega
    · have hc' : ∀ ls, c ≠ .layersMoving ls := fun ls e => hc ⟨ls, e⟩
      have e : allLayers (c :: cs) = allLayers cs := by
        cases c <;> first | rfl | exact absurd rfl (hc' _)
      rw [e] at hg ⊢
      have hi := R.cmd done st m c r1 h hc' (hgc c (by simp)) h1
      have := ih _ _ _ r2 k hi ((cmd_frame hc' h1).trans hk) hg (fun c hc => hgc c (by simp [hc])) h2
      exact ⟨by simpa using this.1, this.2⟩

/-- The induction over a whole program. -/
theorem Rules.sound (R : Rules sett exec Good GoodC I K J) {cs : List (Command α)} {m : M} {ls : List (GLine α)}
    (h0 : I [] newState m) (hg : ∀ j ∈ allJobs cs, Good j) (hgc : ∀ c ∈ cs, GoodC c)
    (hr : (Gcode.mk sett cs).toOutput = .ok ls) :
    ∃ st, I (allJobs cs) st (runLines exec m ls) ∧ st.layerIndex = (allLayers cs).length := by
  obtain ⟨r, h1, hr⟩ := bind_ok hr
  have := pure_ok hr; subst this
  have := R.cmds cs [] newState m r 0 h0 rfl hg hgc h1
  exact ⟨r.2, by simpa [allJobs] using this.1, by simpa using this.2⟩

/-- A program prints (does not panic) as soon as no path is empty. -/
theorem toOutput_total (cs : List (Command α)) (h : ∀ j ∈ allJobs cs, j.path.points ≠ []) :
    ∃ ls, (Gcode.mk sett cs).toOutput = .ok ls := by
  have hp : ∀ (p : Path α) st, p.points ≠ [] → ∃ r, pathToGCode p sett st = .ok r := by
    intro p st hp
    unfold pathToGCode
    cases hl : p.points with
    | nil => exact absurd hl hp
    | cons a t => simp [goAt, goLast, List.getLast?_cons, bind, Except.bind, pure, Except.pure]
  have hps : ∀ (ps : List (Path α)) st, (∀ p ∈ ps, p.points ≠ []) → ∃ r, pathsLoop sett ps st = .ok r := by
    intro ps
    induction ps with
    | nil => intro st _; exact ⟨_, rfl⟩
    | cons p ps ih =>
      intro st h
      obtain ⟨r, hr⟩ := hp p st (h p (by simp))
      obtain ⟨r', hr'⟩ := ih r.2 (fun q hq => h q (by simp [hq]))
      exact ⟨_, by simp only [pathsLoop, hr, bind, Except.bind, hr']; rfl⟩
  have hsec : ∀ (ps : List (Path α)) c st, (∀ p ∈ ps, p.points ≠ []) → ∃ r, pathesToGCode ps c sett st = .ok r := by
    intro ps c st h
    obtain ⟨r, hr⟩ := hps ps (printSpeedToGCode st sett).2 h
    exact ⟨_, by simp only [pathesToGCode, hr, bind, Except.bind]; rfl⟩
  have hlay : ∀ (l : Layer α) (k : Nat) st, (∀ j ∈ layerJobs k l, j.path.points ≠ []) →
      ∃ r, layerToGCode l sett st = .ok r := by
    intro l k st h
    have g : ∀ c ps, (c, ps) ∈ layerSections l → ∀ p ∈ ps, p.points ≠ [] := by
      intro c ps hc p hp
      refine h ⟨k, c, p⟩ ?_
      simp only [layerJobs, List.mem_flatMap, List.mem_map]
      exact ⟨(c, ps), hc, p, hp, rfl⟩
    unfold layerToGCode
    obtain ⟨o, ho⟩ := hsec l.paths "OUTER_PATHES" { (switchFanGCode st sett).2 with isWall := true }
      (g _ _ (by simp [layerSections]; left; rfl))
    obtain ⟨m, hm⟩ := hsec l.middlePs "MIDDLE_PATHES" o.2 (g "MIDDLE_PATHES" _ (by simp [layerSections]))
    obtain ⟨n, hn⟩ := hsec l.innerPs "INNER_PATHES" m.2 (g "INNER_PATHES" _ (by simp [layerSections]))
    obtain ⟨f, hf⟩ := hsec l.fill "FILL_PATHES" { n.2 with isWall := false } (g "FILL_PATHES" _ (by simp [layerSections]))
    exact ⟨_, by simp only [ho, hm, hn, hf, bind, Except.bind]; rfl⟩
  have hlays : ∀ (ls : List (Layer α)) (k : Nat) st, (∀ j ∈ jobsFrom k ls, j.path.points ≠ []) →
      ∃ r, layersToGCode sett ls st = .ok r := by
    intro ls
    induction ls with
    | nil => intro k st _; exact ⟨_, rfl⟩
    | cons l ls ih =>
      intro k st h
      obtain ⟨r, hr⟩ := hlay l k st (fun j hj => h j (by simp [jobsFrom, hj]))
      obtain ⟨r', hr'⟩ := ih (k + 1) r.2 (fun j hj => h j (by simp [jobsFrom, hj]))
      exact ⟨_, by simp only [layersToGCode, hr, bind, Except.bind, hr']; rfl⟩
  have hc : ∀ (cs : List (Command α)) (k : Nat) st, (∀ j ∈ jobsFrom k (allLayers cs), j.path.points ≠ []) →
      ∃ r, cmdsToGCode sett cs st = .ok r := by
    intro cs
    induction cs with
    | nil => intro k st _; exact ⟨_, rfl⟩
    | cons c cs ih =>
      intro k st h
      by_cases hc : ∃ ls, c = .layersMoving ls
      · obtain ⟨ls, rfl⟩ := hc
        have e : allLayers (.layersMoving ls :: cs) = ls ++ allLayers cs := by simp [allLayers]
        rw [e, jobsFrom_append] at h
        obtain ⟨r, hr⟩ := hlays ls k st (fun j hj => h j (by simp [hj]))
        obtain ⟨r', hr'⟩ := ih (k + ls.length) r.2 (fun j hj => h j (by simp [hj]))
        exact ⟨_, by simp only [cmdsToGCode, Command.toGCode, hr, bind, Except.bind, hr']; rfl⟩
      · have hc' : ∀ ls, c ≠ .layersMoving ls := fun ls e => hc ⟨ls, e⟩
        have e : allLayers (c :: cs) = allLayers cs := by
          cases c <;> first | rfl | exact absurd rfl (hc' _)
        rw [e] at h
        have : ∃ r, c.toGCode st sett = .ok r := by
          cases c <;> first | exact ⟨_, rfl⟩ | exact absurd rfl (hc' _)
        obtain ⟨r, hr⟩ := this
        obtain ⟨r', hr'⟩ := ih k r.2 h
        exact ⟨_, by simp only [cmdsToGCode, hr, bind, Except.bind, hr']; rfl⟩
  obtain ⟨r, hr⟩ := hc cs 0 newState h
  exact ⟨r.1, by simp only [Gcode.toOutput, hr, bind, Except.bind]; rfl⟩

/-! ## shape of the lines of one path -/

/-- the extrusion lines of a list of segments, starting from `e` -/
def extLines (sett : GcodeSettings α) : List (Point α × Point α) → α → List (GLine α)
  | [], _ => []
  | q :: qs, e =>
    let e' := e + extrusionDelta sett q.1 q.2
    let s := stringGcode q.2 q.1
    .extrude s.1 s.2.1 s.2.2 e' :: extLines sett qs e'

/-- the `E` value after a list of segments -/
def extE (sett : GcodeSettings α) : List (Point α × Point α) → α → α
  | [], e => e
  | q :: qs, e => extE sett qs (e + extrusionDelta sett q.1 q.2)

theorem foldl_extrudeStep (qs : List (Point α × Point α)) :
    ∀ pre e, qs.foldl (extrudeStep sett) (pre, e) = (pre ++ extLines sett qs e, extE sett qs e) := by
  induction qs with
  | nil => intro pre e; simp [extLines, extE]
  | cons q qs ih => intro pre e; simp [extrudeStep, ih, extLines, extE]

/-- the lines before the extrusion of a path starting at `first` -/
def preLines (sett : GcodeSettings α) (st : GState α) (first : Point α) : List (GLine α) :=
  [GLine.travelZ (st.pos.z + lit 5 1)] ++ retractionToGCode sett ++
    [.travel (first.x + lit 0 0) (first.y + lit 0 0) (first.z + lit 5 1), .travelZ (first.z + lit 0 0)]

theorem pathToGCode_ok {p : Path α} {st r} (h : pathToGCode p sett st = .ok r) :
    ∃ first last, p.points.head? = some first ∧ p.points.getLast? = some last ∧
      r.1 = preLines sett st first ++ extLines sett (adjPairs p.points) st.eOff ∧
      r.2 = { st with eOff := extE sett (adjPairs p.points) st.eOff, pos := last } := by
  obtain ⟨f, hf, h⟩ := bind_ok h
  obtain ⟨l, hl, h⟩ := bind_ok h
  have := pure_ok h; subst this
  refine ⟨f, l, ?_, ?_, ?_, ?_⟩
  · unfold goAt at hf
    cases hp : p.points <;> simp [hp] at hf ⊢
    exact hf
  · unfold goLast at hl
    cases hp : p.points.getLast? <;> simp [hp] at hl ⊢
    exact hl
  · simp [foldl_extrudeStep, preLines]
  · simp [foldl_extrudeStep]

theorem mem_extLines {qs : List (Point α × Point α)} {e l} (h : l ∈ extLines sett qs e) :
    ∃ q ∈ qs, ∃ e', l = .extrude (stringGcode q.2 q.1).1 (stringGcode q.2 q.1).2.1 (stringGcode q.2 q.1).2.2 e' := by
  induction qs generalizing e with
  | nil => simp [extLines] at h
  | cons q qs ih =>
    simp only [extLines, List.mem_cons] at h
    rcases h with h | h
    · exact ⟨q, by simp, _, h⟩
    · obtain ⟨q', h1, h2⟩ := ih h
      exact ⟨q', by simp [h1], h2⟩

/-- Every line of the output satisfies a predicate that holds for each kind of emitted line. -/
theorem all_lines {P : GLine α → Prop} {cs : List (Command α)} {ls}
    (hr : (Gcode.mk sett cs).toOutput = .ok ls)
    (hlayer : ∀ i, P (.layer i)) (hcom : ∀ c ∈ ["OUTER_PATHES", "MIDDLE_PATHES", "INNER_PATHES", "FILL_PATHES"],
      P (.comment c))
    (hoff : P .fanOff) (hon : P .fanOn) (hfeed : ∀ f, P (.feed f)) (hpark : P .park) (htool : ∀ k, P (.tool k))
    (hset : ∀ e sp, P (.setE e sp)) (hset0 : ∀ sp, P (.setE0 sp)) (hax : ∀ k, P (.axisLit k))
    (hto : ∀ e, P (.axisTo e)) (hrot : ∀ a b, P (.rotXZ a b)) (htz : ∀ z, P (.travelZ z))
    (htr : ∀ x y z, P (.travel x y z)) (hre : sett.retraction = true → ∀ f e, P (.retract f e))
    (hex : ∀ x y z e, P (.extrude x y z e)) :
    ∀ l ∈ ls, P l := by
  let Inv : List (Job α) → GState α → List (GLine α) → Prop := fun _ _ m => ∀ l ∈ m, P l
  have run : ∀ m ls, runLines (fun (m : List (GLine α)) l => m ++ [l]) m ls = m ++ ls := by
    intro m ls
    induction ls generalizing m with
    | nil => simp
    | cons a t ih => simp [ih]
  have app : ∀ m ls, (∀ l ∈ m, P l) → (∀ l ∈ ls, P l) →
      ∀ l ∈ runLines (fun (m : List (GLine α)) l => m ++ [l]) m ls, P l := by
    intro m ls h1 h2 l hl
    rw [run] at hl
    rcases List.mem_append.1 hl with hl | hl
    · exact h1 l hl
    · exact h2 l hl
  have R : Rules sett (fun (m : List (GLine α)) l => m ++ [l]) (fun _ => True) (fun _ => True) Inv Inv (fun _ => Inv) := by
    refine ⟨?_, ?_, ?_, ?_, ?_, ?_, ?_⟩
    · intro done st m h
      refine app _ _ h ?_
      intro l hl
      unfold switchFanGCode at hl
      split at hl <;> split at hl <;> simp at hl <;> (try rcases hl with rfl | rfl) <;>
        first | exact hlayer _ | exact hoff | exact hon
    · intro done st m b h; exact h
    · intro done st m c h hc
      refine app _ _ h ?_
      intro l hl
      have hc' : P (.comment c) := by
        apply hcom
        simp at hc ⊢
        tauto
      unfold printSpeedToGCode at hl
      dsimp only at hl
      split at hl <;> simp at hl
      · rcases hl with rfl | rfl
        · exact hc'
        · exact hfeed _
      · subst hl; exact hc'
    · intro c done st m p r k h _ _ hp
      refine app _ _ h ?_
      obtain ⟨f, la, _, _, h1, _⟩ := pathToGCode_ok hp
      intro l hl
      rw [h1] at hl
      rcases List.mem_append.1 hl with hl | hl
      · unfold preLines retractionToGCode at hl
        split at hl
        · simp at hl; rcases hl with rfl | rfl | rfl
          · exact htz _
          · exact htr _ _ _
          · exact htz _
        · rename_i hb
          simp at hl; rcases hl with rfl | rfl | rfl | rfl
          · exact htz _
          · exact hre (by simpa using hb) _ _
          · exact htr _ _ _
          · exact htz _
      · obtain ⟨q, _, e', rfl⟩ := mem_extLines hl
        exact hex _ _ _ _
    · intro c done st m h; exact h
    · intro done st m h
      refine app _ _ h ?_
      intro l hl
      unfold decreaseEOff at hl
      split at hl <;> simp at hl
      subst hl; exact hset0 _
    · intro done st m c r h hc _ hr
      refine app _ _ h ?_
      intro l hl
      cases c <;> simp [Command.toGCode] at hr
      · subst hr; simp at hl
        rcases hl with rfl | rfl | rfl | rfl | rfl | rfl | rfl <;>
          first | exact hpark | exact htool _ | exact hset _ _ | exact hax _ | exact hset0 _
      · subst hr; simp at hl
        rcases hl with rfl | rfl | rfl | rfl | rfl | rfl | rfl <;>
          first | exact hpark | exact htool _ | exact hset _ _ | exact hax _ | exact hset0 _
      · subst hr; simp at hl; subst hl; exact hrot _ _
      · subst hr; simp at hl
        rcases hl with rfl | rfl | rfl | rfl | rfl | rfl | rfl <;>
          first | exact hpark | exact htool _ | exact hset _ _ | exact hto _ | exact hset0 _
      · exact absurd rfl (hc _)
  obtain ⟨st, h, _⟩ := R.sound (m := []) (by intro l hl; simp at hl) (fun _ _ => trivial) (fun _ _ => trivial) hr
  rw [run] at h
  simpa using h

end Goosli
