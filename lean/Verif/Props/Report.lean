import Verif.Spec.Report
import Verif.Props.Principles
import Verif.Props.Run

/-! # C93: the report of a run from first principles -/

namespace PVF

variable {τ : Type} [Inhabited τ]

/-- A report in full mode comes from a solved time series. -/
theorem report_full {P : Pvlib τ} {c : EngineCfg} (hc : c.fastRow = none) {a : RunArgs τ}
    {rep : Report} (hr : runSerial P c (exampleBuilder c.p) a = some rep) :
    ∃ (l : List IrrIn) (o : Fin l.length → FullOut), a.inputs P = some l ∧
      fullResult c (fun t => l.get t) = some o ∧ 1 < c.p.nRows := by
  classical
  have hrows : 1 < c.p.nRows := by
    by_contra h
    rw [C49_single_row P c a (by omega)] at hr
    cases hr
  unfold runSerial at hr
  cases hl : a.inputs P with
  | none => rw [hl] at hr; cases hr
  | some l =>
    rw [hl] at hr
    dsimp only at hr
    cases ho : fullResult c (fun t : Fin l.length => l.get t) with
    | some o => exact ⟨l, o, rfl, ho, hrows⟩
    | none =>
      exfalso
      have he := afterRun_eq c fun t : Fin l.length => l.get t
      have hn : runOut c (fun t : Fin l.length => l.get t) = none := by
        unfold runOut; rw [hc]; dsimp only; rw [ho]; rfl
      rw [hn] at he
      dsimp only at he
      unfold afterRun at he
      rw [he] at hr
      simp at hr

theorem inputs_length {P : Pvlib τ} {a : RunArgs τ} {l : List IrrIn} (hl : a.inputs P = some l) :
    a.Aligned ∧ l.length = a.dni.length := by
  have ha : a.Aligned := by
    by_contra h
    rw [RunArgs.inputs, if_neg fun h' => h h'.1] at hl
    cases hl
  refine ⟨ha, ?_⟩
  rw [inputs_eq P a ha] at hl
  split_ifs at hl
  injection hl with hl
  rw [← hl]; simp

theorem sum_list_range (f : ℕ → ℝ) (n : ℕ) :
    ((List.range n).map f).sum = ∑ k ∈ Finset.range n, f k := by
  induction n with
  | zero => simp
  | succ n ih => rw [List.range_succ, List.map_append, List.sum_append, ih, Finset.sum_range_succ]; simp

/-- The value of a report is the mean over a side of any light that agrees with the results on all
surfaces that are not points. -/
theorem mean_over_side {p : ArrayParams} {u : StepIn} (hT : Traceable p u) {r : ℕ} {s : RowSide}
    (hr : r < p.nRows) {val x : SurfRef → ℝ}
    (h : ∀ a ∈ surfaces p, lengthAt p u a ≠ 0 → x a = val a) :
    MeanOverSide p u r s x (sideWeighted (lengthAt p u) val (sideColl p r s)) := by
  have hseg : 0 < p.nSeg r s := by
    cases s
    · exact (hT.cut r hr).1
    · exact (hT.cut r hr).2
  have hm := (C37_row_side p u r s val hT.array hT.step hseg).1
  unfold MeanOverSide
  refine hm.trans ?_
  rw [sideRefs, sum_flatMap_map, sum_list_range]
  refine Finset.sum_congr rfl fun k hk => ?_
  have hx : ∀ sh, lengthAt p u (.pv r s k sh) * val (.pv r s k sh)
      = lengthAt p u (.pv r s k sh) * x (.pv r s k sh) := by
    intro sh
    by_cases h0 : lengthAt p u (.pv r s k sh) = 0
    · rw [h0, zero_mul, zero_mul]
    · rw [h _ (mem_surfaces.2 (mem_allRefs_pv.2 ⟨hr, Finset.mem_range.1 hk⟩)) h0]
  rw [Fintype.sum_bool]
  simp only [List.map_cons, List.map_nil, List.sum_cons, List.sum_nil, add_zero, hx]
  exact add_comm _ _

theorem lookup_four {rep : Report} {w1 w2 w3 w4 : List ℝ}
    (h : rep = [("qinc_front", w1), ("qinc_back", w2), ("iso_front", w3), ("iso_back", w4)]) :
    rep.lookup "qinc_front" = some w1 ∧ rep.lookup "qinc_back" = some w2 ∧
    rep.lookup "iso_front" = some w3 ∧ rep.lookup "iso_back" = some w4 := by
  subst h
  simp [List.lookup]

/-- The values of the report of a run in full mode at a time step, in terms of full mode. -/
theorem report_light {P : Pvlib τ} {c : EngineCfg} (hc : c.fastRow = none) {a : RunArgs τ}
    {rep : Report} (hr : runSerial P c (exampleBuilder c.p) a = some rep) {l : List IrrIn}
    (hl : a.inputs P = some l) {o : Fin l.length → FullOut}
    (ho : fullResult c (fun t => l.get t) = some o) (hrows : 1 < c.p.nRows) (t : Fin l.length)
    (hT : Traceable c.p (l.get t).step) {sky : ℝ} {x : SurfRef → ℝ}
    (hx : ∀ b ∈ surfaces c.p, lengthAt c.p (l.get t).step b ≠ 0 → x b = (o t).qinc b)
    (hi : ∀ b ∈ surfaces c.p, (o t).isotropic b
      = vfToSky c.p (tsVfMatrix c.p (fun t : Fin l.length => (l.get t).step) t) b * sky) :
    ReportsLight rep t c.p (l.get t).step x sky := by
  have he := C49_example_report P c hc a l hl hrows o ho
  rw [hr] at he
  injection he with he
  have hi' : ∀ b ∈ surfaces c.p, lengthAt c.p (l.get t).step b ≠ 0 →
      raySky c.p (fitStep c.p (l.get t).step) b * sky = (o t).isotropic b := by
    intro b hb hlb
    rw [hi b hb]
    have := C52_sky_by_rays c.p (fun t : Fin l.length => (l.get t).step) t hT.array hT.step hT.flat
      hT.cut hT.len hb ((hT.len b hb).resolve_left hlb)
    rw [this]
  have hget : ∀ f : Fin l.length → ℝ, (List.ofFn f)[(t : ℕ)]? = some (f t) := by
    intro f
    rw [List.getElem?_ofFn, dif_pos t.2]
  obtain ⟨h1, h2, h3, h4⟩ := lookup_four he
  exact ⟨⟨_, _, h1, hget _, mean_over_side hT hrows hx⟩, ⟨_, _, h2, hget _, mean_over_side hT hrows hx⟩,
    ⟨_, _, h3, hget _, mean_over_side hT hrows hi'⟩, ⟨_, _, h4, hget _, mean_over_side hT hrows hi'⟩⟩

theorem run_losses {P : Pvlib τ} {q : IrrParams} {a : RunArgs τ} {l : List IrrIn}
    (hl : a.inputs P = some l) (hq : RunLosses q a) (t : Fin l.length) : LossesOk q (l.get t) := by
  have hv : l.get t = inputAt P a t := inputs_get hl (i := t) (by simp)
  have hlt : (t : ℕ) < a.dni.length := (inputs_length hl).2 ▸ t.2
  exact ⟨hq.front, hq.back, by rw [hv]; exact hq.albedo t hlt⟩

/-- **C93.**  Isotropic irradiance model, full mode: the example report of a run has, at every time
step at which light can be traced, the means over the front and over the back of row 1 of the light
that arrives along straight lines, and of its part that comes straight from the sky.  There is such a
light, and the report has the means of any such light. -/
theorem C93_isotropic {P : Pvlib τ} (c : EngineCfg) (hc : c.fastRow = none)
    (hk : c.kind = .isotropic) (args : RunArgs τ) (hq : RunLosses c.q args) (rep : Report)
    (hr : runSerial P c (exampleBuilder c.p) args = some rep) (i : ℕ) (hi : i < args.dni.length)
    (hT : Traceable c.p (args.stepAt i)) (hz0 : 0 ≤ args.solarZenith.getD i 0)
    (hz1 : args.solarZenith.getD i 0 < 90)
    (haz : cosd (args.surfaceAzimuth.getD i 0 - c.p.axisAzimuth) = 0) :
    let u := args.stepAt i
    let Light := ArrivingLight c.p (fitStep c.p u)
      (sunlight c.p (fitStep c.p u) (args.dni.getD i 0) (openShare c.q))
      (reflectivity (args.albedoList.getD i 0) c.q.rhoFront c.q.rhoBack) (args.dhi.getD i 0)
    (∃ x, Light x) ∧ ∀ x, Light x → ReportsLight rep i c.p u x (args.dhi.getD i 0) := by
  intro u Light
  obtain ⟨l, o, hl, ho, hrows⟩ := report_full hc hr
  have hlt : i < l.length := (inputs_length hl).2 ▸ hi
  let t : Fin l.length := ⟨i, hlt⟩
  have hv : l.get t = inputAt P args i := inputs_get hl (i := i) (by simp [t, hlt])
  have hstep : (l.get t).step = u := by rw [hv]; rfl
  have hfull : runFullMode c.p (fun t : Fin l.length => (l.get t).step)
      (fun t => isotropicStep c.q (l.get t)) (aoiOf c.aoi c.p fun t => (l.get t).step) = some o := by
    have : ∀ v, irrStepOf c v = isotropicStep c.q v := fun v => by unfold irrStepOf; rw [hk]
    unfold fullResult at ho
    simpa only [this] using ho
  have hloss := run_losses hl hq
  have key := fun x => C91_isotropic c.p _ c.q (fun t => l.get t) _ o hfull hloss t
    (by rw [hstep]; exact hT) ⟨rfl, rfl, rfl, rfl⟩ (by rw [hstep]; exact hz0)
    (by rw [hstep]; exact hz1) (by rw [hstep]; exact haz) x
  have hiso : ∀ b ∈ surfaces c.p, (o t).isotropic b
      = vfToSky c.p (tsVfMatrix c.p (fun t : Fin l.length => (l.get t).step) t) b * (l.get t).dhi :=
    fun b hb => (C09_components c.p _ _ _ o hfull (fun t => isotropic_inverseOk c.p c.q (l.get t)
      (hloss t).front.1.ne' (hloss t).back.1.ne' (hloss t).albedo.1.ne') t b hb).2.1
  have hrl := fun x hx => report_light (x := x) hc hr hl ho hrows t (by rw [hstep]; exact hT) hx hiso
  rw [hstep] at key hrl
  rw [hv] at key hrl
  exact ⟨⟨(o t).qinc, (key _).2 fun _ _ _ => rfl⟩, fun x hx => hrl x ((key x).1 hx)⟩

/-- **C93.**  The same for the hybrid Perez model, with a pvlib that follows the formula of Perez et
al.: the light from the sun includes the circumsolar light, and the light of a band above the horizon
is added. -/
theorem C93_perez {P : Pvlib τ} {F1 F2 : PerezIn → ℝ} (hP : PerezFormula P.perez F1 F2)
    (c : EngineCfg) (hc : c.fastRow = none) (hk : c.kind = .hybridPerez) (args : RunArgs τ)
    (hq : RunLosses c.q args) (hb0 : 0 < c.q.horizonBandAngle) (hb1 : c.q.horizonBandAngle < 90)
    (rep : Report) (hr : runSerial P c (exampleBuilder c.p) args = some rep)
    (i : ℕ) (hi : i < args.dni.length) (hT : Traceable c.p (args.stepAt i))
    (hs : SkyLitAt P args i) (hz0 : 0 ≤ args.solarZenith.getD i 0)
    (hz1 : args.solarZenith.getD i 0 ≤ 85)
    (haz : cosd (args.surfaceAzimuth.getD i 0 - c.p.axisAzimuth) = 0)
    (hov : c.p.width * |cosd (args.surfaceTilt.getD i 0)| < c.p.distance) :
    let u := args.stepAt i
    let f1 := F1 (args.perezIn P i)
    let f2 := F2 (args.perezIn P i)
    let dhi := args.dhi.getD i 0
    let Light := ArrivingLight c.p (fitStep c.p u)
      (fun a => sunlight c.p (fitStep c.p u)
          (args.dni.getD i 0 + dhi * f1 / cosd (args.solarZenith.getD i 0)) (openShare c.q) a
        + bandLight c.p (fitStep c.p u) |dhi * f2 * sind (args.surfaceTilt.getD i 0)|
            c.q.horizonBandAngle a)
      (reflectivity (args.albedoList.getD i 0) c.q.rhoFront c.q.rhoBack) (dhi * (1 - f1))
    (∃ x, Light x) ∧ ∀ x, Light x → ReportsLight rep i c.p u x (dhi * (1 - f1)) := by
  intro u f1 f2 dhi Light
  obtain ⟨l, o, hl, ho, hrows⟩ := report_full hc hr
  have hlt : i < l.length := (inputs_length hl).2 ▸ hi
  let t : Fin l.length := ⟨i, hlt⟩
  have hget : l[i]? = some (l.get t) := by simp [t, hlt]
  have hv : l.get t = inputAt P args i := inputs_get hl hget
  have hstep : (l.get t).step = u := by rw [hv]; rfl
  have hfull : runFullMode c.p (fun t : Fin l.length => (l.get t).step)
      (fun t => hybridPerezStep c.q c.p (fitStep c.p (l.get t).step) (l.get t))
      (aoiOf c.aoi c.p fun t => (l.get t).step) = some o := by
    have : ∀ v, irrStepOf c v = hybridPerezStep c.q c.p (fitStep c.p v.step) v :=
      fun v => by unfold irrStepOf; rw [hk]
    unfold fullResult at ho
    simpa only [this] using ho
  have hloss := run_losses hl hq
  have hlit : SkyLit P args i (l.get t) := by
    rw [hv]
    exact ⟨by change args.solarZenith.getD i 0 ≤ 90; linarith, hs.tilt, hs.cos, hs.front, hs.back⟩
  have key := fun x => C91_perez hP hl c.p _ c.q (fun t => l.get t) _ o hfull hloss t hget hlit
    (by rw [hstep]; exact hT) ⟨rfl, rfl, rfl, rfl⟩ (by rw [hstep]; exact hz0)
    (by rw [hstep]; exact hz1) (by rw [hstep]; exact haz) (by rw [hstep]; exact hov) hb0 hb1 x
  have hlum := (C64_luminances hP hl hget hlit).1
  have hiso : ∀ b ∈ surfaces c.p, (o t).isotropic b
      = vfToSky c.p (tsVfMatrix c.p (fun t : Fin l.length => (l.get t).step) t) b
        * ((l.get t).dhi * (1 - f1)) := by
    intro b hb
    rw [← hlum]
    exact (C09_components c.p _ _ _ o hfull (fun t => hybrid_inverseOk c.p _ c.q (l.get t)
      (hloss t).front.1.ne' (hloss t).back.1.ne' (hloss t).albedo.1.ne') t b hb).2.1
  have hrl := fun x hx => report_light (x := x) hc hr hl ho hrows t (by rw [hstep]; exact hT) hx hiso
  rw [hstep] at key hrl
  rw [hv] at key hrl
  exact ⟨⟨(o t).qinc, (key _).2 fun _ _ _ => rfl⟩, fun x hx => hrl x ((key x).1 hx)⟩

/-- Two vertical rows, 100 W/m2 of direct and of diffuse light, half of which comes from the
direction of the sun: the run returns a report, and it has the means of the light that arrives along
straight lines. -/
theorem C93_demo :
    let args := oneStep 90 270 45 270
    let g := fitStep vertArray vertStep
    let Light := ArrivingLight vertArray g
      (fun a => sunlight vertArray g (100 + 50 / cosd 45) (openShare demoIrrParams) a
        + bandLight vertArray g 0 (15 / 2) a)
      (reflectivity (1 / 10) demoIrrParams.rhoFront demoIrrParams.rhoBack) 50
    ∃ rep x, runSerial halfPvlib vertCfg (exampleBuilder vertArray) args = some rep ∧ Light x ∧
      ReportsLight rep 0 vertArray vertStep x 50 := by
  intro args g Light
  have hin := oneStep_inputs 90 270 45 270
  set l := [inputAt halfPvlib (oneStep 90 270 45 270) 0] with hl
  have hmem : ∀ t : Fin l.length, (l.get t).step = vertStep ∧ (l.get t).albedo = 1 / 10 := by
    intro t
    have : l.get t = inputAt halfPvlib (oneStep 90 270 45 270) 0 := List.mem_singleton.1 (l.get_mem t)
    rw [this]; exact ⟨rfl, rfl⟩
  obtain ⟨o, ho⟩ := C07_hybrid vertArray (fun t => (l.get t).step) demoIrrParams
    (fun t => l.get t) (aoiOf none vertArray fun t => (l.get t).step)
    (fun t => ⟨demo_losses.front, demo_losses.back, by rw [(hmem t).2]; norm_num⟩)
    vert_physicalArray (fun t => by rw [(hmem t).1]; exact vert_physicalStep)
  have hser := C49_example_report halfPvlib vertCfg rfl args l hin
    (by norm_num [vertCfg, vertArray]) o ho
  have hc : cosIncidence 90 270 45 270 ≠ 0 := by
    rw [cosIncidence_east]; exact (sind_pos (by norm_num) (by norm_num)).ne'
  have hlit := oneStep_lit (tilt := 90) (azimuth := 270) (zenith := 45) (sunAzimuth := 270)
    (by norm_num) (by norm_num) (by norm_num) hc
  have key := C93_perez halfPvlib_formula vertCfg rfl rfl args
    ⟨demo_losses.front, demo_losses.back, fun i hi => by
      have : i = 0 := by simpa [args, oneStep] using hi
      subst this
      norm_num [args, oneStep, RunArgs.albedoList]⟩
    (by norm_num [vertCfg, demoIrrParams]) (by norm_num [vertCfg, demoIrrParams]) _ hser 0
    (by simp [args, oneStep]) vert_traceable ⟨hlit.tilt, hlit.cos, hlit.front, hlit.back⟩
    (by norm_num [args, oneStep]) (by norm_num [args, oneStep])
    (by
      change cosd (270 - 0) = 0
      rw [show (270 - 0 : ℝ) = 90 + 180 by norm_num, cosd_add_180, cosd_90, neg_zero])
    (by
      change vertArray.width * |cosd 90| < vertArray.distance
      rw [cosd_90]
      norm_num [vertArray, ArrayParams.distance])
  have e1 : args.dni.getD 0 0 + args.dhi.getD 0 0 * (1 / 2) / cosd (args.solarZenith.getD 0 0)
      = 100 + 50 / cosd 45 := by
    change (100:ℝ) + 100 * (1 / 2) / cosd 45 = _
    norm_num
  have e2 : args.dhi.getD 0 0 * (1 - 1 / 2) = 50 := by
    change (100:ℝ) * (1 - 1 / 2) = 50
    norm_num
  simp only [e1, e2, mul_zero, zero_mul, abs_zero] at key
  obtain ⟨⟨x, hx⟩, hrep⟩ := key
  exact ⟨_, x, hser, hx, hrep x hx⟩

end PVF
