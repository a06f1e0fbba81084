import Verif.Proofs.B64Extrude
import Verif.Props.C33
import Verif.Props.C34
import Verif.Props.C98
/-! # C99 Filament and extruder coordinate in float64 -/
set_option autoImplicit false
namespace Goosli
open Flt Spec

/-- points with finite coordinates of at most a kilometre -/
def BedLine (ps : List R3) : Prop := ∀ w ∈ ps, w.isF ∧ w.onBed

theorem val_zero64 : val (B64.of 0) = 0 := by
  unfold val
  rw [fmt3_of isF_zero, readDec_fmtFixed3, mul_zero]
  have := roundEven_int 0
  norm_num at this
  rw [this]; norm_num

theorem val_4000 : val (B64.of 4000) = 4000 := by
  have h : IsF (4000 : ℝ) := by exact_mod_cast isF_int (n := 4000) (by norm_num)
  unfold val
  rw [fmt3_of h, readDec_fmtFixed3]
  have := roundEven_int 4000000
  norm_num at this ⊢
  rw [this]; norm_num

theorem val_mono64 {x y : ℝ} (hx : IsF x) (hy : IsF y) (h : x ≤ y) : val (B64.of x) ≤ val (B64.of y) := C98_order x y hx hy h

theorem val_near64 {x : ℝ} (hx : IsF x) : |val (B64.of x) - x| ≤ 1 / 2000 := (C98_printed x hx).2.1

/-- one polyline: register, filament and the claim about every step -/
theorem ext_f64 {sett : GcodeSettings B64} {w h d : ℝ} (F : FloatSett sett w h d) (ps : List R3) (hps : BedLine ps) :
    ∀ e : ℝ, Register e → ∃ e' : ℝ, extE sett (adjPairs (ps.map R3.f64)) (B64.of e) = B64.of e' ∧ Register e' ∧
      (e + 2 * (feedPerMm w h d * R3.polyLen ps) + ps.length * (1 / 2 ^ 31) ≤ 2 ^ 21 →
        |e' - e - feedPerMm w h d * R3.polyLen ps| ≤ countErr (feedPerMm w h d * R3.polyLen ps) ps.length) ∧
      ∀ (p : Printer) (P : Prop), P → p.e = val (B64.of e) → p.tool = 0 →
        (runLines (qexec stepOk) (p, P) (extLines sett (adjPairs (ps.map R3.f64)) (B64.of e))).2 ∧
        (runLines (qexec stepOk) (p, P) (extLines sett (adjPairs (ps.map R3.f64)) (B64.of e))).1.e = val (B64.of e') ∧
        (runLines (qexec stepOk) (p, P) (extLines sett (adjPairs (ps.map R3.f64)) (B64.of e))).1.axis 0 =
          p.axis 0 + (val (B64.of e') - val (B64.of e)) := by
  induction ps with
  | nil =>
    intro e he
    refine ⟨e, rfl, he, fun _ => ?_, fun p P hP hpe _ => ?_⟩
    · simp [R3.polyLen, countErr]
    · simp [adjPairs, extLines, hP, hpe]
  | cons a t ih =>
    intro e he
    cases t with
    | nil =>
      refine ⟨e, rfl, he, fun _ => ?_, fun p P hP hpe _ => ?_⟩
      · have := countErr_nonneg 1 (le_refl 0)
        simpa [R3.polyLen] using this
      · simp [adjPairs, extLines, hP, hpe]
    | cons b t =>
      have ha := hps a (by simp)
      have hb := hps b (by simp)
      obtain ⟨δ, hδ, hδF, hδ0, hδ1, hE⟩ := delta_f64 F a b ha.1 hb.1 ha.2 hb.2
      obtain ⟨hadd, hreg, hle, hrd⟩ := register_step he hδF hδ0 hδ1
      obtain ⟨e', h1, h2, h3, h4⟩ := ih (fun w hw => hps w (List.mem_cons_of_mem _ hw)) (rd (e + δ)) hreg
      have hc : 0 ≤ feedPerMm w h d := feedPerMm_nonneg (le_trans (by positivity) F.wide.1) (le_trans (by positivity) F.high.1)
      have hL := mul_nonneg hc (R3.dist_nonneg a b)
      have hL2 := mul_nonneg hc (R3.polyLen_nonneg' (b :: t))
      have hpl : R3.polyLen (a :: b :: t) = R3.dist a b + R3.polyLen (b :: t) := rfl
      rw [List.map_cons, List.map_cons, adjPairs_cons]
      refine ⟨e', ?_, h2, fun hbud => ?_, fun p P hP hpe ht => ?_⟩
      · rw [extE, hδ, hadd]
        exact h1
      · have hlen : ((a :: b :: t).length : ℝ) = ((b :: t).length : ℝ) + 1 := by push_cast [List.length_cons]; ring
        rw [hpl, hlen, mul_add] at hbud
        have hn : (0 : ℝ) ≤ ((b :: t).length : ℝ) * (1 / 2 ^ 31) := by positivity
        obtain ⟨k1, k2⟩ := count_step hL hE hrd (by linarith)
        have k3 := h3 (by linarith)
        have e1 : countErr (feedPerMm w h d * R3.polyLen (a :: b :: t)) (a :: b :: t).length =
            countErr (feedPerMm w h d * R3.dist a b) 1 + countErr (feedPerMm w h d * R3.polyLen (b :: t)) (b :: t).length := by
          rw [countErr_add, hpl, mul_add]
          congr 1
          simp only [List.length_cons]; omega
        rw [e1]
        have e2 : e' - e - feedPerMm w h d * R3.polyLen (a :: b :: t) = (rd (e + δ) - e - feedPerMm w h d * R3.dist a b) +
            (e' - rd (e + δ) - feedPerMm w h d * R3.polyLen (b :: t)) := by rw [hpl]; ring
        rw [e2]
        exact (abs_add_le _ _).trans (add_le_add k1 k3)
      · rw [extLines, runLines_cons]
        dsimp only
        rw [hδ, hadd]
        have hq : stepOk p (GLine.extrude (stringGcode b.f64 a.f64).1 (stringGcode b.f64 a.f64).2.1
            (stringGcode b.f64 a.f64).2.2 (B64.of (rd (e + δ)))).stmt := by
          refine ⟨fun _ _ => ?_, fun h => ?_⟩
          · have := exec_extrude p (stringGcode b.f64 a.f64).1 (stringGcode b.f64 a.f64).2.1 (stringGcode b.f64 a.f64).2.2
              (B64.of (rd (e + δ)))
            rw [execLine] at this
            rw [this, hpe]
            exact val_mono64 he.1 hreg.1 hle
          · simp [GLine.stmt, layerNo] at h
        have hx := exec_extrude p (stringGcode b.f64 a.f64).1 (stringGcode b.f64 a.f64).2.1 (stringGcode b.f64 a.f64).2.2
          (B64.of (rd (e + δ)))
        obtain ⟨g1, g2, g3⟩ := h4 (execLine p (.extrude (stringGcode b.f64 a.f64).1
          (stringGcode b.f64 a.f64).2.1 (stringGcode b.f64 a.f64).2.2 (B64.of (rd (e + δ))))) (P ∧ stepOk p _) ⟨hP, hq⟩
          (by rw [hx]) (by rw [hx]; exact ht)
        refine ⟨g1, g2, g3.trans ?_⟩
        rw [hx]
        simp only [drive, ht, if_true, hpe]; ring

/-- what the program and the printer agree on -/
def Agree (st : GState B64) (p : Printer) (e : ℝ) : Prop :=
  p.tool = 0 ∧ Register e ∧ st.eOff = B64.of e ∧ p.e = val (B64.of e)

theorem mono_rules64 (sett : GcodeSettings B64) {w h d : ℝ} (F : FloatSett sett w h d) (hret : sett.retraction = false) :
    Rules sett (qexec stepOk) (fun j => ∃ ps : List R3, j.path.points = ps.map R3.f64 ∧ BedLine ps) (fun _ => True)
    (fun _ st m => m.2 ∧ ∃ e : ℝ, e ≤ 4000 ∧ Agree st m.1 e)
    (fun _ st m => m.2 ∧ ∃ e : ℝ, Agree st m.1 e)
    (fun _ _ st m => m.2 ∧ ∃ e : ℝ, Agree st m.1 e) := by
  have h4000 : IsF (4000 : ℝ) := by exact_mod_cast isF_int (n := 4000) (by norm_num)
  refine ⟨?_, ?_, ?_, ?_, ?_, ?_, ?_⟩
  · rintro done st ⟨p, P⟩ ⟨hP, e, he4, ht, hr, he, hpe⟩
    simp only at hP ht hpe
    have hl : stepOk p (GLine.layer st.layerIndex : GLine B64).stmt := by
      refine ⟨fun h _ => ?_, fun _ => ?_⟩
      · simp [isMove, GLine.stmt] at h
      · rw [hpe, ← val_4000]
        exact val_mono64 hr.1 h4000 he4
    unfold switchFanGCode
    split <;> split <;>
      simp only [List.append_nil, List.cons_append, List.nil_append, runLines_cons, runLines_nil, qexec, exec_layer,
        exec_fanOff, exec_fanOn]
    · exact ⟨⟨⟨hP, hl⟩, stepOk_quiet _ _ (by simp) trivial (Or.inl (by rw [exec_fanOff]))⟩, e, ht, hr, he, hpe⟩
    · exact ⟨⟨hP, hl⟩, e, ht, hr, he, hpe⟩
    · exact ⟨⟨⟨hP, hl⟩, stepOk_quiet _ _ (by simp) trivial (Or.inl (by rw [exec_fanOn]))⟩, e, ht, hr, he, hpe⟩
    · exact ⟨⟨hP, hl⟩, e, ht, hr, he, hpe⟩
  · intro done st m b h; exact h
  · rintro done st ⟨p, P⟩ c ⟨hP, e, ht, hr, he, hpe⟩ hc
    simp only at hP ht hpe
    have hpl := comment_plain (α := B64) hc
    have h1 : stepOk p (GLine.comment c : GLine B64).stmt := stepOk_quiet _ _ (by simp) hpl (Or.inl (by rw [exec_comment _ _ hpl]))
    unfold printSpeedToGCode
    dsimp only
    split <;>
      simp only [List.append_nil, List.cons_append, List.nil_append, runLines_cons, runLines_nil, qexec, exec_feed,
        exec_comment _ _ hpl]
    · exact ⟨⟨⟨hP, h1⟩, stepOk_quiet _ _ (by simp) trivial (Or.inl (by rw [exec_feed]))⟩, e, ht, hr, he, hpe⟩
    · exact ⟨⟨hP, h1⟩, e, ht, hr, he, hpe⟩
  · rintro c done st ⟨p, P⟩ pt r k ⟨hP, e, ht, hr, he, hpe⟩ _ ⟨ps, hps, hbed⟩ hp
    simp only at hP ht hpe hps
    have hf := frame_lines r.1 p (motion_path hp)
    obtain ⟨fi, la, _, _, h1, h2⟩ := pathToGCode_ok hp
    obtain ⟨e', g1, g2, _, g4⟩ := ext_f64 F ps hbed e hr
    have hpre : (runLines (qexec stepOk) (p, P) (preLines sett st fi)).2 ∧
        (runLines (qexec stepOk) (p, P) (preLines sett st fi)).1.e = p.e ∧
        (runLines (qexec stepOk) (p, P) (preLines sett st fi)).1.tool = p.tool := by
      simp only [preLines, retractionToGCode, hret, Bool.not_false, if_true, List.append_nil, List.cons_append,
        List.nil_append, runLines_cons, runLines_nil, qexec, exec_travelZ, exec_travel]
      refine ⟨⟨⟨⟨hP, ?_⟩, ?_⟩, ?_⟩, trivial, trivial⟩
      · exact stepOk_quiet _ _ (by simp) trivial (Or.inl (by rw [exec_travelZ]))
      · exact stepOk_quiet _ _ (by simp) trivial (Or.inl (by rw [exec_travel]))
      · exact stepOk_quiet _ _ (by simp) trivial (Or.inl (by rw [exec_travelZ]))
    obtain ⟨k1, k2, _⟩ := g4 (runLines (qexec stepOk) (p, P) (preLines sett st fi)).1
      (runLines (qexec stepOk) (p, P) (preLines sett st fi)).2 hpre.1 (hpre.2.1.trans hpe) (hpre.2.2.trans ht)
    refine ⟨?_, e', by rw [qexec_fst, hf.tool, ht], g2, ?_, ?_⟩
    · rw [h1, hps, he, runLines_append]; exact k1
    · rw [h2, hps, he]; exact g1
    · rw [h1, hps, he, runLines_append]; exact k2
  · intro c done st m h; exact h
  · rintro done st ⟨p, P⟩ ⟨hP, e, ht, hr, he, hpe⟩
    simp only at hP ht hpe
    unfold decreaseEOff
    have hlit : (lit 4000 0 : B64) = B64.of 4000 := by rw [B64.lit_of]; norm_num
    rw [he, hlit, B64.lt_of h4000 hr.1]
    split
    · simp only [runLines_cons, runLines_nil, qexec, exec_setE0]
      refine ⟨⟨hP, stepOk_quiet _ _ (by simp) trivial (Or.inr (Or.inl ?_))⟩, 0, by norm_num, ht, register_zero,
        B64.lit0, val_zero64.symm⟩
      simp [isMove, GLine.stmt]
    · rename_i h4
      simp at h4
      exact ⟨hP, e, h4, ht, hr, he, hpe⟩
  · rintro done st ⟨p, P⟩ c r ⟨hP, e, he4, ht, hrg, he, hpe⟩ hc _ hr
    simp only at hP ht hpe
    have nm : ∀ (q : Printer) x sp, stepOk q (GLine.setE x sp : GLine B64).stmt := fun q x sp =>
      stepOk_quiet _ _ (by simp) trivial (Or.inr (Or.inl (by simp [isMove, GLine.stmt])))
    have nm0 : ∀ (q : Printer) sp, stepOk q (GLine.setE0 sp : GLine B64).stmt := fun q sp =>
      stepOk_quiet _ _ (by simp) trivial (Or.inr (Or.inl (by simp [isMove, GLine.stmt])))
    have nt : ∀ (q : Printer) k, stepOk q (GLine.tool k : GLine B64).stmt := fun q k =>
      stepOk_quiet _ _ (by simp) trivial (Or.inl (by rw [exec_tool]))
    have np : ∀ (q : Printer), stepOk q (GLine.park : GLine B64).stmt := fun q =>
      stepOk_quiet _ _ (by simp) trivial (Or.inl (by rw [exec_park]))
    cases c <;> simp [Command.toGCode] at hr
    · subst hr
      simp only [runLines_cons, runLines_nil, qexec, exec_park, exec_tool, exec_setE, exec_setE0, exec_axisLit]
      refine ⟨⟨⟨⟨⟨⟨⟨⟨hP, np _⟩, nt _ _⟩, nm _ _ _⟩, stepOk_quiet _ _ (by simp) trivial (Or.inr (Or.inr (by simp)))⟩, nm0 _ _⟩,
        nt _ _⟩, nm _ _ _⟩, e, he4, rfl, hrg, he, by rw [he]⟩
    · subst hr
      simp only [runLines_cons, runLines_nil, qexec, exec_park, exec_tool, exec_setE, exec_setE0, exec_axisLit]
      refine ⟨⟨⟨⟨⟨⟨⟨⟨hP, np _⟩, nt _ _⟩, nm _ _ _⟩, stepOk_quiet _ _ (by simp) trivial (Or.inr (Or.inr (by simp)))⟩, nm0 _ _⟩,
        nt _ _⟩, nm _ _ _⟩, e, he4, rfl, hrg, he, by rw [he]⟩
    · subst hr
      simp only [runLines_cons, runLines_nil, qexec, exec_rotXZ]
      exact ⟨⟨hP, stepOk_quiet _ _ (by simp) trivial (Or.inl (by rw [exec_rotXZ]))⟩, e, he4, ht, hrg, he, hpe⟩
    · subst hr
      simp only [runLines_cons, runLines_nil, qexec, exec_park, exec_tool, exec_setE, exec_setE0, exec_axisTo]
      refine ⟨⟨⟨⟨⟨⟨⟨⟨hP, np _⟩, nt _ _⟩, nm _ _ _⟩, stepOk_quiet _ _ (by simp) trivial (Or.inr (Or.inr (by simp)))⟩, nm0 _ _⟩,
        nt _ _⟩, nm _ _ _⟩, e, he4, rfl, hrg, he, by rw [he]⟩
    · exact absurd rfl (hc _)

/-- a job of ordinary size: line width, layer height and bar diameter between a thousandth and a hundred millimetres, paths with
finite coordinates of at most a kilometre, no retraction -/
structure OrdinaryJob (g : Gcode B64) (w h d : ℝ) (ws : List (List R3)) : Prop where
  sett : FloatSett g.settings w h d
  noRetract : g.settings.retraction = false
  lines : (allJobs g.cmds).map (fun j => j.path.points) = ws.map (fun l => l.map R3.f64)
  bed : ∀ l ∈ ws, BedLine l

theorem OrdinaryJob.good {g : Gcode B64} {w h d : ℝ} {ws : List (List R3)} (H : OrdinaryJob g w h d ws) :
    ∀ j ∈ allJobs g.cmds, ∃ ps : List R3, j.path.points = ps.map R3.f64 ∧ BedLine ps := by
  intro j hjm
  have : j.path.points ∈ (allJobs g.cmds).map (fun j => j.path.points) := List.mem_map_of_mem hjm
  rw [H.lines] at this
  obtain ⟨ps, hm, hps⟩ := List.mem_map.1 this
  exact ⟨ps, hps.symm, H.bed ps hm⟩

/-- **C99 (monotone).** In float64, for a job of ordinary size and any length: every move executed with the extruder selected leaves
the E coordinate the same or larger, and at the start of every layer the E coordinate is at most 4000. -/
theorem C99_monotone (g : Gcode B64) (t : String) (ht : g.text = .ok t) (p0 : Printer) (hp : p0.tool = 0) (he : p0.e = 0)
    (w h d : ℝ) (ws : List (List R3)) (H : OrdinaryJob g w h d ws) :
    ∀ x ∈ steps p0 (parseText t),
      (isMove x.2 → x.1.tool = 0 → x.1.e ≤ (x.1.exec x.2).e) ∧ ((layerNo x.2).isSome → x.1.e ≤ 4000) := by
  obtain ⟨ls, hls, h'⟩ := bind_ok ht
  have := pure_ok h'
  rw [← this]
  obtain ⟨st, ⟨h4, _⟩, _⟩ := (mono_rules64 g.settings H.sett H.noRetract).sound (cs := g.cmds)
    (m := (p0, True)) ⟨trivial, 0, by norm_num, hp, register_zero, by simp only [newState]; exact B64.lit0, he.trans val_zero64.symm⟩ H.good
    (fun _ _ => trivial) hls
  rw [qexec_snd] at h4
  exact (steps_text stepOk _ ls (toOutput_plain hls)
    (by intro q; exact ⟨fun h => absurd h (by simp [isMove]), fun h => by simp [layerNo] at h⟩)).2 h4.2

/-! ## the filament -/

/-- the real number behind a finite value -/
noncomputable def B64.real (x : B64) : ℝ := match x.1 with
  | .fin r => r
  | _ => 0

noncomputable def R3.of64 (p : Point B64) : R3 := ⟨B64.real p.x, B64.real p.y, B64.real p.z⟩

theorem R3.of64_f64 {w : R3} (h : w.isF) : R3.of64 w.f64 = w := by
  unfold R3.of64 R3.f64 B64.real
  simp only [B64.of_val h.1, B64.of_val h.2.1, B64.of_val h.2.2]

theorem lines_of64 {ps : List R3} (h : BedLine ps) : (ps.map R3.f64).map R3.of64 = ps := by
  rw [List.map_map]
  conv_rhs => rw [← List.map_id ps]
  exact List.map_congr_left fun w hw => R3.of64_f64 (h w hw).1

/-- filament for a list of jobs -/
noncomputable def jobFeed (c : ℝ) (done : List (Spec.Job B64)) : ℝ := c * (done.map fun j => R3.polyLen (j.path.points.map R3.of64)).sum
def jobPoints (done : List (Spec.Job B64)) : ℕ := (done.map fun j => j.path.points.length).sum

/-- the relation between what was printed, what was fed and what is still in the register -/
def fed64 (c a0 : ℝ) (done : List (Spec.Job B64)) (st : GState B64) (m : Printer × Nat) : Prop :=
  0 ≤ jobFeed c done ∧ ∃ e : ℝ, Agree st m.1 e ∧ (jobFeed c done ≤ 400000 → jobPoints done ≤ 10 ^ 9 →
    e ≤ jobFeed c done + countErr (jobFeed c done) (jobPoints done) ∧
    |m.1.axis 0 - a0 - val (B64.of e) - (jobFeed c done - e)| ≤ (m.2 : ℝ) / 2000 + countErr (jobFeed c done) (jobPoints done))

theorem countErr_small {x : ℝ} {n : ℕ} (hx : x ≤ 400000) (hn : n ≤ 10 ^ 9) : countErr x n ≤ 1 := by
  have hn' : (n : ℝ) ≤ 10 ^ 9 := by exact_mod_cast hn
  unfold countErr
  have h1 : 20 * x / 2 ^ 52 ≤ 20 * 400000 / 2 ^ 52 := by gcongr
  have h2 : (n : ℝ) * (1 / 2 ^ 32 + 1 / 2 ^ 72) ≤ 10 ^ 9 * (1 / 2 ^ 32 + 1 / 2 ^ 72) := by gcongr
  have : (20 : ℝ) * 400000 / 2 ^ 52 + 10 ^ 9 * (1 / 2 ^ 32 + 1 / 2 ^ 72) ≤ 1 := by norm_num
  linarith

/-- lines that keep tool, register and filament keep the relation -/
theorem fed64_quiet {c a0 : ℝ} {done : List (Spec.Job B64)} {st st' : GState B64} {m : Printer × Nat}
    (ls : List (GLine B64)) (h : fed64 c a0 done st m) (he : st'.eOff = st.eOff)
    (h1 : (runLines execLine m.1 ls).tool = 0) (h2 : (runLines execLine m.1 ls).e = m.1.e)
    (h3 : (runLines execLine m.1 ls).axis 0 = m.1.axis 0) : fed64 c a0 done st' (runLines cexec m ls) := by
  obtain ⟨h0, e, ⟨_, hr, h4, h5⟩, h7⟩ := h
  refine ⟨h0, e, ⟨by rw [cexec_fst, h1], hr, he.trans h4, by rw [cexec_fst, h2, h5]⟩, fun b1 b2 => ⟨(h7 b1 b2).1, ?_⟩⟩
  rw [cexec_fst, h3]
  refine (h7 b1 b2).2.trans ?_
  have : m.2 ≤ (runLines cexec m ls).2 := by rw [cexec_snd]; omega
  have : (m.2 : ℝ) ≤ (runLines cexec m ls).2 := by exact_mod_cast this
  linarith

theorem fed_rules64 (sett : GcodeSettings B64) {w h d : ℝ} (F : FloatSett sett w h d) (hret : sett.retraction = false) (a0 : ℝ) :
    Rules sett cexec (fun j => ∃ ps : List R3, j.path.points = ps.map R3.f64 ∧ BedLine ps) (fun _ => True)
    (fed64 (feedPerMm w h d) a0) (fed64 (feedPerMm w h d) a0) (fun _ => fed64 (feedPerMm w h d) a0) := by
  have hc : 0 ≤ feedPerMm w h d := feedPerMm_nonneg (le_trans (by positivity) F.wide.1) (le_trans (by positivity) F.high.1)
  refine ⟨?_, ?_, ?_, ?_, ?_, ?_, ?_⟩
  · intro done st m h
    have ht : m.1.tool = 0 := by obtain ⟨_, e, ⟨ht, _⟩, _⟩ := h; exact ht
    refine fed64_quiet _ h ?_ ?_ ?_ ?_ <;> unfold switchFanGCode <;> split <;> split <;>
      simp [exec_layer, exec_fanOff, exec_fanOn, ht]
  · intro done st m b h; exact h
  · intro done st m c h hc
    have ht : m.1.tool = 0 := by obtain ⟨_, e, ⟨ht, _⟩, _⟩ := h; exact ht
    have hpl := comment_plain (α := B64) hc
    refine fed64_quiet _ h ?_ ?_ ?_ ?_ <;> unfold printSpeedToGCode <;> dsimp only <;> split <;>
      simp [exec_feed, exec_comment _ _ hpl, ht]
  · rintro c done st m pt r k ⟨h0, e, ⟨ht, hr, he, hpe⟩, hfed⟩ _ ⟨ps, hps, hbed⟩ hp
    simp only at hps
    have hf := frame_lines r.1 m.1 (motion_path hp)
    have hle : (m.2 : ℝ) ≤ (runLines cexec m r.1).2 := by
      have : m.2 ≤ (runLines cexec m r.1).2 := by rw [cexec_snd]; omega
      exact_mod_cast this
    obtain ⟨fi, la, _, _, h1, h2⟩ := pathToGCode_ok hp
    obtain ⟨e', g1, g2, g3, g4⟩ := ext_f64 F ps hbed e hr
    obtain ⟨_, k2, k3⟩ := g4 (runLines execLine m.1 (preLines sett st fi)) True trivial
      (by simp [preLines, retractionToGCode, hret, exec_travelZ, exec_travel, hpe])
      (by simp [preLines, retractionToGCode, hret, exec_travelZ, exec_travel, ht])
    rw [qexec_fst] at k2 k3
    have hpa : (runLines execLine m.1 (preLines sett st fi)).axis 0 = m.1.axis 0 := by
      simp [preLines, retractionToGCode, hret, exec_travelZ, exec_travel]
    have hfeed : jobFeed (feedPerMm w h d) (done ++ [⟨k, c, pt⟩]) = jobFeed (feedPerMm w h d) done + feedPerMm w h d * R3.polyLen ps := by
      unfold jobFeed
      rw [List.map_append, List.sum_append, List.map_singleton, List.sum_singleton, hps, lines_of64 hbed, mul_add]
    have hpts : jobPoints (done ++ [⟨k, c, pt⟩]) = jobPoints done + ps.length := by
      unfold jobPoints
      rw [List.map_append, List.sum_append, List.map_singleton, List.sum_singleton, hps, List.length_map]
    have hpos := mul_nonneg hc (R3.polyLen_nonneg' ps)
    refine ⟨by rw [hfeed]; linarith, e', ⟨by rw [cexec_fst, hf.tool, ht], g2, ?_, ?_⟩, ?_⟩
    · rw [h2, hps, he]; exact g1
    · rw [cexec_fst, h1, hps, he, runLines_append]; exact k2
    · rw [hfeed, hpts]
      intro b1 b2
      have b1' : jobFeed (feedPerMm w h d) done ≤ 400000 := by linarith
      have b2' : jobPoints done ≤ 10 ^ 9 := by omega
      obtain ⟨f1, f2⟩ := hfed b1' b2'
      have hsm := countErr_small b1' b2'
      have hn : (ps.length : ℝ) ≤ 10 ^ 9 := by
        have : ps.length ≤ 10 ^ 9 := by omega
        exact_mod_cast this
      have hn2 : (ps.length : ℝ) * (1 / 2 ^ 31) ≤ 1 := by
        have : (ps.length : ℝ) * (1 / 2 ^ 31) ≤ 10 ^ 9 * (1 / 2 ^ 31) := by gcongr
        exact this.trans (by norm_num)
      have g := g3 (by norm_num at *; linarith)
      rw [← countErr_add]
      constructor
      · have := (abs_le.1 g).2; linarith
      · have ha : (runLines cexec m r.1).1.axis 0 = m.1.axis 0 + (val (B64.of e') - val (B64.of e)) := by
          rw [cexec_fst, h1, hps, he, runLines_append, k3, hpa]
        rw [ha]
        have e1 : m.1.axis 0 + (val (B64.of e') - val (B64.of e)) - a0 - val (B64.of e') -
            (jobFeed (feedPerMm w h d) done + feedPerMm w h d * R3.polyLen ps - e') =
            (m.1.axis 0 - a0 - val (B64.of e) - (jobFeed (feedPerMm w h d) done - e)) +
              (e' - e - feedPerMm w h d * R3.polyLen ps) := by ring
        rw [e1]
        refine (abs_add_le _ _).trans ?_
        linarith
  · intro c done st m h; exact h
  · intro done st m hh
    unfold decreaseEOff
    split
    · obtain ⟨h0, e, ⟨ht, hr, he, hpe⟩, hfed⟩ := hh
      have hrs : isReset m.1 (GLine.setE0 false : GLine B64).stmt = true := by simp [isReset, GLine.stmt, ht]
      simp only [runLines_cons, runLines_nil, cexec, exec_setE0, hrs, if_true]
      refine ⟨h0, 0, ⟨ht, register_zero, B64.lit0, val_zero64.symm⟩, fun b1 b2 => ⟨?_, ?_⟩⟩
      · have := countErr_nonneg (jobPoints done) h0; linarith
      · have hax := (hfed b1 b2).2
        have hn := val_near64 hr.1
        rw [val_zero64]
        simp only
        rw [abs_le] at hax hn ⊢
        push_cast
        constructor <;> linarith [hax.1, hax.2, hn.1, hn.2]
    · exact hh
  · intro done st m c r hh hc _ hr
    have hh' := hh
    obtain ⟨h0, e, ⟨ht, hrg, he, hpe⟩, hfed⟩ := hh'
    cases c <;> simp [Command.toGCode] at hr
    · subst hr
      refine fed64_quiet _ hh rfl ?_ ?_ ?_ <;>
        simp [exec_park, exec_tool, exec_setE, exec_setE0, exec_axisLit, drive, hpe, he]
    · subst hr
      refine fed64_quiet _ hh rfl ?_ ?_ ?_ <;>
        simp [exec_park, exec_tool, exec_setE, exec_setE0, exec_axisLit, drive, hpe, he]
    · subst hr
      refine fed64_quiet _ hh rfl ?_ ?_ ?_ <;> simp [exec_rotXZ, ht]
    · subst hr
      refine fed64_quiet _ hh rfl ?_ ?_ ?_ <;>
        simp [exec_park, exec_tool, exec_setE, exec_setE0, exec_axisTo, drive, hpe, he]
    · exact absurd rfl (hc _)

/-- **C99 (filament).** In float64, for a job of ordinary size with at most 400 metres of filament and a thousand million points: the
filament fed by executing the text differs from (area of line / area of bar) x (total length of the lines) by at most half a thousandth
per extruder reset plus one, and a fraction `2^-31` of a millimetre per point plus four. -/
theorem C99_filament (g : Gcode B64) (t : String) (ht : g.text = .ok t) (p0 : Printer) (hp : p0.tool = 0) (he : p0.e = 0)
    (w h d : ℝ) (ws : List (List R3)) (H : OrdinaryJob g w h d ws)
    (hT : 4 * w * h / (d ^ 2 * Real.pi) * (ws.map R3.polyLen).sum ≤ 400000) (hN : (ws.map List.length).sum ≤ 10 ^ 9) :
    |((p0.run (parseText t)).axis 0 - p0.axis 0) - 4 * w * h / (d ^ 2 * Real.pi) * (ws.map R3.polyLen).sum| ≤
      ((resetCount p0 (parseText t) : ℝ) + 1) * (1 / 2000) + ((ws.map List.length).sum + 4 : ℝ) / 2 ^ 31 := by
  obtain ⟨ls, hls, h'⟩ := bind_ok ht
  have := pure_ok h'
  rw [← this, show ls.foldl (fun s l => s ++ l.render) "" = renderAll ls from rfl,
    run_text _ _ (toOutput_plain hls), resets_text _ _ (toOutput_plain hls)]
  have hc0 : countErr 0 0 = 0 := by simp [countErr]
  obtain ⟨st, hf, _⟩ := (fed_rules64 g.settings H.sett H.noRetract (p0.axis 0)).sound (cs := g.cmds)
    (m := (p0, 0)) ⟨by simp [jobFeed], 0, ⟨hp, register_zero, by simp only [newState]; exact B64.lit0, he.trans val_zero64.symm⟩,
      fun _ _ => by simp [jobFeed, jobPoints, hc0, val_zero64]⟩ H.good (fun _ _ => trivial) hls
  obtain ⟨h0, e, ⟨_, hr, _, _⟩, hfed⟩ := hf
  have hfeed : jobFeed (feedPerMm w h d) (allJobs g.cmds) = 4 * w * h / (d ^ 2 * Real.pi) * (ws.map R3.polyLen).sum := by
    unfold jobFeed feedPerMm
    congr 2
    have e1 : (allJobs g.cmds).map (fun j => R3.polyLen (j.path.points.map R3.of64)) =
        ((allJobs g.cmds).map (fun j => j.path.points)).map fun l => R3.polyLen (l.map R3.of64) := by
      rw [List.map_map]; rfl
    rw [e1, H.lines, List.map_map]
    exact List.map_congr_left fun l hl => by
      rw [Function.comp_apply, lines_of64 (H.bed l hl)]
  have hpts : jobPoints (allJobs g.cmds) = (ws.map List.length).sum := by
    unfold jobPoints
    have e1 : (allJobs g.cmds).map (fun j => j.path.points.length) =
        ((allJobs g.cmds).map (fun j => j.path.points)).map List.length := by
      rw [List.map_map]; rfl
    rw [e1, H.lines, List.map_map]
    congr 1
    exact List.map_congr_left fun l _ => by rw [Function.comp_apply, List.length_map]
  rw [hfeed, hpts] at hfed
  obtain ⟨_, hax⟩ := hfed hT hN
  rw [cexec_fst, cexec_snd] at hax
  have hn := val_near64 hr.1
  simp only [zero_add] at hax
  have hce : countErr (4 * w * h / (d ^ 2 * Real.pi) * (ws.map R3.polyLen).sum) (ws.map List.length).sum ≤
      ((ws.map List.length).sum + 4 : ℝ) / 2 ^ 31 := by
    generalize 4 * w * h / (d ^ 2 * Real.pi) * (ws.map R3.polyLen).sum = T at hT
    generalize (ws.map List.length).sum = N
    unfold countErr
    have h1 : 20 * T / 2 ^ 52 ≤ 20 * 400000 / 2 ^ 52 := by gcongr
    have h2 : (N : ℝ) * (1 / 2 ^ 32 + 1 / 2 ^ 72) ≤ N * (1 / 2 ^ 31) := by gcongr; norm_num
    have h3 : (20 : ℝ) * 400000 / 2 ^ 52 ≤ 4 / 2 ^ 31 := by norm_num
    have : (N + 4 : ℝ) / 2 ^ 31 = N * (1 / 2 ^ 31) + 4 / 2 ^ 31 := by ring
    linarith
  rw [abs_le] at hax hn ⊢
  constructor <;> linarith [hax.1, hax.2, hn.1, hn.2]

section Example
private noncomputable def exPath : List R3 := [⟨0, 0, 0⟩, ⟨10, 0, 0⟩, ⟨10, 5, 0⟩]
private noncomputable def exProg : Gcode B64 :=
  ⟨⟨B64.of (7 / 4), B64.of 1, B64.of (1 / 4), B64.of (1 / 2), true, 50, 20, 30, false, 40, B64.of 5⟩,
   [.layersMoving [⟨0, ⟨B64.of 0, B64.of 0, B64.of 1⟩, [⟨exPath.map R3.f64⟩], [], [], []⟩], .inclineX,
    .layersMoving [⟨0, ⟨B64.of 0, B64.of 0, B64.of 1⟩, [], [], [], [⟨exPath.map R3.f64⟩]⟩]]⟩

private theorem small_F (m e : ℤ) (hm : |m| ≤ 2 ^ 10) (he : -10 ≤ e) (he' : e ≤ 0) : IsF ((m : ℝ) * 2 ^ e) := by
  refine ⟨⟨m, e, hm.trans (by norm_num), by omega, rfl⟩, le_max ?_⟩
  rw [abs_mul, abs_of_pos (by positivity : (0 : ℝ) < 2 ^ e)]
  have h1 : (|m| : ℝ) ≤ 2 ^ 10 := by exact_mod_cast hm
  have h2 : (2 : ℝ) ^ e ≤ 1 := zpow_le_one_of_nonpos₀ (by norm_num) he'
  calc |(m : ℝ)| * 2 ^ e ≤ 2 ^ 10 * 1 := by gcongr
    _ ≤ _ := by norm_num

/-- the hypotheses hold for a program with two layers, a bed tilt and 30 mm of lines -/
example : ∃ t, exProg.text = .ok t ∧ OrdinaryJob exProg (1 / 2) (1 / 4) (7 / 4) [exPath, exPath] ∧
    4 * (1 / 2) * (1 / 4) / ((7 / 4) ^ 2 * Real.pi) * ([exPath, exPath].map R3.polyLen).sum ≤ 400000 ∧
    ([exPath, exPath].map R3.polyLen).sum = 30 := by
  obtain ⟨ls, hls⟩ := toOutput_total (sett := exProg.settings) exProg.cmds (by
    intro j hj
    simp [exProg, allJobs, jobsFrom, allLayers, layerJobs, layerSections] at hj
    rcases hj with rfl | rfl <;> simp [exPath])
  have hlen : ([exPath, exPath].map R3.polyLen).sum = 30 := by
    have h1 : R3.dist ⟨0, 0, 0⟩ ⟨10, 0, 0⟩ = 10 := by
      simp only [R3.dist, R3.norm, R3.normSq, R3.dot, R3.sub_x, R3.sub_y, R3.sub_z]
      rw [show ((10:ℝ) - 0) * (10 - 0) + (0 - 0) * (0 - 0) + (0 - 0) * (0 - 0) = 10 ^ 2 by norm_num]
      exact Real.sqrt_sq (by norm_num)
    have h2 : R3.dist ⟨10, 0, 0⟩ ⟨10, 5, 0⟩ = 5 := by
      simp only [R3.dist, R3.norm, R3.normSq, R3.dot, R3.sub_x, R3.sub_y, R3.sub_z]
      rw [show ((10:ℝ) - 10) * (10 - 10) + (5 - 0) * (5 - 0) + (0 - 0) * (0 - 0) = 5 ^ 2 by norm_num]
      exact Real.sqrt_sq (by norm_num)
    simp [exPath, R3.polyLen, h1, h2]; norm_num
  have hi : ∀ n : ℤ, |n| ≤ 2 ^ 10 → IsF (n : ℝ) := fun n hn => isF_int (hn.trans (by norm_num))
  have i0 := isF_zero
  have i5 : IsF (5 : ℝ) := by exact_mod_cast hi 5 (by norm_num)
  have i10 : IsF (10 : ℝ) := by exact_mod_cast hi 10 (by norm_num)
  have d1 : IsF (1 / 2 : ℝ) := by have := small_F 1 (-1) (by norm_num) (by norm_num) (by norm_num); norm_num at this ⊢; exact this
  have d2 : IsF (1 / 4 : ℝ) := by have := small_F 1 (-2) (by norm_num) (by norm_num) (by norm_num); norm_num at this ⊢; exact this
  have d3 : IsF (7 / 4 : ℝ) := by have := small_F 7 (-2) (by norm_num) (by norm_num) (by norm_num); norm_num at this ⊢; exact this
  refine ⟨renderAll ls, ?_, ⟨⟨rfl, rfl, rfl, ⟨d1, d2, d3⟩, by norm_num, by norm_num, by norm_num⟩, rfl, rfl, ?_⟩, ?_, hlen⟩
  · show (Gcode.mk exProg.settings exProg.cmds).text = _
    simp only [Gcode.text, hls, bind, Except.bind]; rfl
  · intro l hl
    have : l = exPath := by simpa using hl
    subst this
    intro w hw
    simp only [exPath, List.mem_cons, List.not_mem_nil, or_false] at hw
    rcases hw with rfl | rfl | rfl
    · exact ⟨⟨i0, i0, i0⟩, by simp [R3.onBed]⟩
    · exact ⟨⟨i10, i0, i0⟩, by simp [R3.onBed]; norm_num⟩
    · exact ⟨⟨i10, i5, i0⟩, by simp [R3.onBed]; norm_num⟩
  · rw [hlen]
    have hp := Real.pi_gt_three
    have : 4 * (1 / 2) * (1 / 4) / ((7 / 4) ^ 2 * Real.pi) ≤ 1 := by
      rw [div_le_one (by positivity)]
      nlinarith
    linarith
end Example
end Goosli
