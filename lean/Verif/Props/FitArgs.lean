import Verif.Props.Run
import Verif.Spec.FitArgs

/-!
# C89: runs for one time step given by plain numbers, and time steps marked to be skipped
-/

namespace PVF

variable {τ : Type} [Inhabited τ]

theorem runEngine_eq (P : Pvlib τ) (c : EngineCfg) (b : Builder) (x : FitArgs τ) :
    runEngine P c b x = runSerial P c b x.arrays := by
  unfold runEngine engineFitArgs runSerial
  cases x.arrays.inputs P <;> rfl

theorem albedoList_getElem {a : RunArgs τ} {i : ℕ} (hi : i < a.dni.length) {al : ℝ}
    (h : a.albedo = .inl al ∨ ∃ l, a.albedo = .inr l ∧ l[i]? = some al) :
    a.albedoList[i]? = some al := by
  unfold RunArgs.albedoList
  rcases h with h | ⟨l, h, hl⟩ <;> rw [h]
  · exact List.getElem?_replicate_of_lt hi
  · exact hl

theorem getD_of_getElem? {α : Type*} {l : List α} {i : ℕ} {x : α} (d : α) (h : l[i]? = some x) :
    l.getD i d = x := by rw [List.getD_eq_getElem?_getD, h]; rfl

theorem stepOf_aligned {a : RunArgs τ} {i : ℕ} {x : FitArgs τ} (hx : StepOf a i x) :
    x.arrays.Aligned := by
  cases hx with
  | intro t dni dhi zenith azimuth tilt surfAzimuth albedo ghi =>
    refine ⟨rfl, rfl, rfl, rfl, rfl, rfl, rfl, ?_⟩
    intro l hl
    cases ghi with
    | none => cases hl
    | some g => injection hl with hl; rw [← hl]; rfl

theorem stepOf_length {a : RunArgs τ} {i : ℕ} {x : FitArgs τ} (hx : StepOf a i x) :
    x.arrays.dni.length = 1 := by cases hx; rfl

theorem stepOf_lt {a : RunArgs τ} {i : ℕ} {x : FitArgs τ} (hx : StepOf a i x) :
    i < a.dni.length := by
  cases hx with
  | intro t dni dhi zenith azimuth tilt surfAzimuth albedo ghi ht hdni =>
    exact (List.getElem?_eq_some_iff.1 hdni).1

theorem stepOf_inputAt (P : Pvlib τ) {a : RunArgs τ} {i : ℕ} {x : FitArgs τ} (hx : StepOf a i x) :
    inputAt P x.arrays 0 = inputAt P a i := by
  have hi := stepOf_lt hx
  cases hx with
  | intro t dni dhi zenith azimuth tilt surfAzimuth albedo ghi ht hdni hdhi hz haz htilt hsaz hal
      hghi =>
    have h1 := getD_of_getElem? default ht
    have h2 := getD_of_getElem? 0 hdni
    have h3 := getD_of_getElem? 0 hdhi
    have h4 := getD_of_getElem? 0 hz
    have h5 := getD_of_getElem? 0 haz
    have h6 := getD_of_getElem? 0 htilt
    have h7 := getD_of_getElem? 0 hsaz
    have h8 := getD_of_getElem? 0 (albedoList_getElem hi hal)
    have h9 : (a.ghi.map fun l => l.getD i 0) = ghi := by
      rcases hghi with ⟨h, h'⟩ | ⟨l, g, h, hl, h'⟩
      · rw [h, h']; rfl
      · rw [h, h']; exact congrArg some (getD_of_getElem? 0 hl)
    unfold inputAt RunArgs.perezIn
    rw [h1, h2, h3, h4, h5, h6, h7, h8, h9]
    cases ghi <;> rfl

theorem reportOf_atStep (c : EngineCfg) (b : Builder) (l : List IrrIn) (i : ℕ) (hi : i < l.length) :
    Report.atStep (reportOf c b l) i = reportOf c b [l[i]] := by
  unfold Report.atStep reportOf
  rw [List.map_map]
  refine List.map_congr_left fun f _ => ?_
  simp [List.getElem?_map, List.getElem?_eq_getElem hi]

/-- The time step is not affected by other time steps that the code keeps or drops surfaces for:
at full mode, each surface is a point or has a length above the tolerance. -/
def ArgsSafe (c : EngineCfg) (a : RunArgs τ) : Prop :=
  c.fastRow = none → ∀ i < a.dni.length,
    PointOrLong c.p ⟨a.solarZenith.getD i 0, a.solarAzimuth.getD i 0, a.surfaceTilt.getD i 0,
      a.surfaceAzimuth.getD i 0⟩

open Classical in
theorem runSerial_eq (P : Pvlib τ) (c : EngineCfg) (b : Builder) (a : RunArgs τ) (ha : a.Aligned)
    (hs : ArgsSafe c a) (hne : a.dni ≠ []) :
    runSerial P c b a
      = if RunOk c b ∧ ∀ i < a.dni.length, StepOk c (inputAt P a i) then
          some (reportOf c b ((List.range a.dni.length).map (inputAt P a))) else none := by
  have hne' : (List.range a.dni.length).map (inputAt P a) ≠ [] := by
    simpa using hne
  rw [runSerial_of_inputs P c b a ((List.range a.dni.length).map (inputAt P a))
    (by rw [inputs_eq P a ha, if_pos (Or.inl hne), if_pos (Or.inl hne')])
    (by
      intro x hx
      obtain ⟨i, hi, rfl⟩ := List.mem_map.1 hx
      exact fun h => hs h i (List.mem_range.1 hi))]
  refine if_congr ?_ rfl rfl
  constructor
  · rintro ⟨_, h1, h2⟩
    exact ⟨h1, fun i hi => h2 _ (List.mem_map_of_mem (List.mem_range.2 hi))⟩
  · rintro ⟨h1, h2⟩
    refine ⟨Or.inl hne', h1, fun x hx => ?_⟩
    obtain ⟨i, hi, rfl⟩ := List.mem_map.1 hx
    exact h2 i (List.mem_range.1 hi)

open Classical in
theorem runEngine_step (P : Pvlib τ) (c : EngineCfg) (b : Builder) (a : RunArgs τ)
    (hs : ArgsSafe c a) {i : ℕ} {x : FitArgs τ} (hx : StepOf a i x) :
    runEngine P c b x = if RunOk c b ∧ StepOk c (inputAt P a i) then
      some (reportOf c b [inputAt P a i]) else none := by
  have hi := stepOf_lt hx
  have hl := stepOf_length hx
  have hsafe : ArgsSafe c x.arrays := by
    intro h k hk
    have hk0 : k = 0 := by omega
    subst hk0
    have := hs h i hi
    have e := stepOf_inputAt (P := ⟨fun _ => 0, fun _ => 0, fun _ => ⟨0, 0, 0, 0⟩,
      fun _ _ _ _ _ _ _ _ => 0, true⟩) hx
    have e1 := congrArg IrrIn.solarZenith e
    have e2 := congrArg IrrIn.solarAzimuth e
    have e3 := congrArg IrrIn.surfaceTilt e
    have e4 := congrArg IrrIn.surfaceAzimuth e
    simp only [inputAt] at e1 e2 e3 e4
    rw [e1, e2, e3, e4]
    exact this
  rw [runEngine_eq, runSerial_eq P c b x.arrays (stepOf_aligned hx) hsafe
    (by intro h; rw [h] at hl; cases hl), hl]
  have e := stepOf_inputAt P hx
  have hr : (List.range 1).map (inputAt P x.arrays) = [inputAt P a i] := by
    simp [List.range_succ, e]
  rw [hr]
  refine if_congr (and_congr Iff.rfl ?_) rfl rfl
  constructor
  · intro h; rw [← e]; exact h 0 one_pos
  · intro h k hk
    have hk0 : k = 0 := by omega
    subst hk0; rw [e]; exact h

/-- C89: if a run for time series returns a report, then a run for one of the time steps, given by
plain numbers, returns the part of the report that belongs to this time step. -/
theorem C89_numbers (P : Pvlib τ) (c : EngineCfg) (b : Builder) (a : RunArgs τ) (ha : a.Aligned)
    (hs : ArgsSafe c a) (r : Report) (hr : runEngine P c b (.series a) = some r)
    {i : ℕ} {x : FitArgs τ} (hx : StepOf a i x) :
    runEngine P c b x = some (Report.atStep r i) := by
  classical
  have hi := stepOf_lt hx
  rw [runEngine_eq] at hr
  change runSerial P c b a = some r at hr
  rw [runSerial_eq P c b a ha hs (by intro h; rw [h] at hi; exact absurd hi (Nat.not_lt_zero _))] at hr
  split_ifs at hr with h
  injection hr with hr
  rw [runEngine_step P c b a hs hx, if_pos ⟨h.1, h.2 i hi⟩, ← hr,
    reportOf_atStep c b _ i (by simpa using hi)]
  simp

/-- C89: a run for time series succeeds exactly when the runs for its single time steps succeed, and it
returns their values one after the other. -/
theorem C89_series (P : Pvlib τ) (c : EngineCfg) (b : Builder) (a : RunArgs τ) (ha : a.Aligned)
    (hs : ArgsSafe c a) (hne : a.dni ≠ []) (x : ℕ → FitArgs τ)
    (hx : ∀ i < a.dni.length, StepOf a i (x i)) (r : Report) :
    runEngine P c b (.series a) = some r ↔
      (∀ e ∈ r, e.2.length = a.dni.length) ∧
      ∀ i < a.dni.length, runEngine P c b (x i) = some (Report.atStep r i) := by
  classical
  constructor
  · intro hr
    refine ⟨?_, fun i hi => C89_numbers P c b a ha hs r hr (hx i hi)⟩
    rw [runEngine_eq] at hr
    change runSerial P c b a = some r at hr
    rw [runSerial_eq P c b a ha hs hne] at hr
    split_ifs at hr with h
    injection hr with hr
    intro e he
    rw [← hr] at he
    obtain ⟨f, _, rfl⟩ := List.mem_map.1 he
    simp
  · rintro ⟨hlen, h⟩
    have hpos : 0 < a.dni.length := List.length_pos_iff.2 hne
    have hok : ∀ i < a.dni.length, (RunOk c b ∧ StepOk c (inputAt P a i)) ∧
        reportOf c b [inputAt P a i] = Report.atStep r i := by
      intro i hi
      have := h i hi
      rw [runEngine_step P c b a hs (hx i hi)] at this
      split_ifs at this with h'
      injection this with this
      exact ⟨h', this⟩
    rw [runEngine_eq]
    change runSerial P c b a = some r
    rw [runSerial_eq P c b a ha hs hne, if_pos ⟨(hok 0 hpos).1.1, fun i hi => (hok i hi).1.2⟩]
    congr 1
    have hnum : r.length = b.fields.length := by
      have := congrArg List.length (hok 0 hpos).2
      simpa [reportOf, Report.atStep] using this.symm
    refine List.ext_getElem (by simpa [reportOf] using hnum.symm) fun k hk hk' => ?_
    have hkey : ∀ i (hi : i < a.dni.length), (b.fields[k]'(by rw [← hnum]; exact hk')).key = r[k].1 ∧
        [(b.fields[k]'(by rw [← hnum]; exact hk')).value (stepView c (inputAt P a i))]
          = (r[k].2[i]?).toList := by
      intro i hi
      have e := (hok i hi).2
      have e' : (reportOf c b [inputAt P a i])[k]? = (Report.atStep r i)[k]? := by rw [e]
      unfold reportOf Report.atStep at e'
      rw [List.getElem?_map, List.getElem?_map, List.getElem?_eq_getElem hk',
        List.getElem?_eq_getElem (by rw [← hnum]; exact hk')] at e'
      simp only [Option.map_some, Option.some.injEq, Prod.mk.injEq, List.map_cons,
        List.map_nil] at e'
      exact e'
    have hlk : r[k].2.length = a.dni.length := hlen _ (List.getElem_mem hk')
    have hget : (reportOf c b ((List.range a.dni.length).map (inputAt P a)))[k]
        = ((b.fields[k]'(by rw [← hnum]; exact hk')).key,
          ((List.range a.dni.length).map (inputAt P a)).map fun y =>
            (b.fields[k]'(by rw [← hnum]; exact hk')).value (stepView c y)) := by
      simp only [reportOf, List.getElem_map]
    rw [hget]
    refine Prod.ext (hkey 0 hpos).1 ?_
    refine List.ext_getElem (by simp [hlk]) fun i hi hi' => ?_
    have := (hkey i (by rw [← hlk]; exact hi')).2
    rw [List.getElem?_eq_getElem hi'] at this
    simp only [Option.toList_some, List.cons.injEq, and_true] at this
    simp [this]

theorem skipStep_iff (z d h : ℝ) : skipStep z d h = true ↔ NoUse z d h := by
  unfold skipStep NoUse
  simp [or_assoc]

/-- C89: `fit` marks exactly the time steps at which the sun is below the horizon, an irradiance is
negative, or there is no light at all; … -/
theorem C89_marks (P : Pvlib τ) (c : EngineCfg) (st st' : EngineState) (x : FitArgs τ)
    (marks : List Bool) (h : engineFitArgs P c st x = some (st', marks)) :
    marks.length = x.arrays.dni.length ∧
    ∀ (i : ℕ) (z d e : ℝ), x.arrays.solarZenith[i]? = some z → x.arrays.dni[i]? = some d →
      x.arrays.dhi[i]? = some e → ∃ m, marks[i]? = some m ∧ (m = true ↔ NoUse z d e) := by
  have ha : x.arrays.Aligned := by
    unfold engineFitArgs RunArgs.inputs at h
    split_ifs at h with h'
    · exact h'.1
    · cases h
  have hm : x.skipSteps = marks := by
    unfold engineFitArgs at h
    cases hi : x.arrays.inputs P with
    | none => rw [hi] at h; cases h
    | some l => rw [hi] at h; injection h with h; exact congrArg Prod.snd h
  subst hm
  obtain ⟨_, h1, h2, _⟩ := ha
  refine ⟨?_, fun i z d e hz hd he => ⟨_, ?_, skipStep_iff z d e⟩⟩
  · unfold FitArgs.skipSteps
    rw [List.length_zipWith, List.length_zip, h1, h2]; simp
  · unfold FitArgs.skipSteps
    rw [List.getElem?_zipWith, hz, (List.getElem?_zip_eq_some (z := (d, e))).2 ⟨hd, he⟩]

/-- C89: … but nothing is skipped: after `fit`, the illuminated ground has the direct light of every time
step, a negative one at night if the DNI is positive. -/
theorem C89_not_skipped (P : Pvlib τ) (c : EngineCfg) (st : EngineState) (a : RunArgs τ)
    (ha : a.Aligned) (hne : a.dni ≠ []) :
    ∃ st' marks, ∃ n, ∃ f : Fitted n, engineFitArgs P c st (.series a) = some (st', marks) ∧
      st'.fitted = some ⟨n, f⟩ ∧ n = a.dni.length ∧
      ∀ (t : Fin n) (e : ℕ) (z : ℕ), ∃ g, f.dict (.gnd false e z) .direct = some g ∧
        g t = a.dni.getD t 0 * cosd (a.solarZenith.getD t 0) ∧
        (0 < a.dni.getD t 0 → 90 < a.solarZenith.getD t 0 → a.solarZenith.getD t 0 ≤ 180 →
          g t < 0 ∧ marks[(t : ℕ)]? = some true) := by
  have hin : a.inputs P = some ((List.range a.dni.length).map (inputAt P a)) := by
    rw [inputs_eq P a ha, if_pos (Or.inl hne)]
  set l := (List.range a.dni.length).map (inputAt P a) with hl
  have hlen : l.length = a.dni.length := by simp [hl]
  have hfit : engineFitArgs P c st (.series a)
      = some (engineFit c st (fun t : Fin l.length => l.get t), (FitArgs.series a).skipSteps) := by
    unfold engineFitArgs
    change (a.inputs P).map _ = _
    rw [hin]; rfl
  refine ⟨_, _, l.length, _, hfit, rfl, hlen, fun t e z => ?_⟩
  have hget : l.get t = inputAt P a t := by simp [hl]
  refine ⟨fun t => (directCats c.q (l.get t)).get (.gnd false e z), ?_, ?_, ?_⟩
  · change fitDict c (fun t : Fin l.length => l.get t) (.gnd false e z) .direct = _
    unfold fitDict transformParams
    cases c.kind <;> rfl
  · simp only [hget]; rfl
  · intro h1 h2 h3
    refine ⟨?_, ?_⟩
    · simp only [hget]
      change a.dni.getD t 0 * cosd (a.solarZenith.getD t 0) < 0
      have : cosd (a.solarZenith.getD t 0) < 0 := by
        unfold cosd deg2rad
        apply Real.cos_neg_of_pi_div_two_lt_of_lt <;> nlinarith [Real.pi_pos]
      nlinarith
    · have ht : (t : ℕ) < a.dni.length := by rw [← hlen]; exact t.2
      obtain ⟨_, hk⟩ := C89_marks P c st _ _ _ hfit
      have hz : (t : ℕ) < a.solarZenith.length := by rw [ha.2.2.1]; exact ht
      have hd : (t : ℕ) < a.dhi.length := by rw [ha.2.1]; exact ht
      obtain ⟨m, hm, hm'⟩ := hk t _ _ _ (List.getElem?_eq_getElem hz) (List.getElem?_eq_getElem ht)
        (List.getElem?_eq_getElem hd)
      rw [hm]
      rw [List.getD_eq_getElem _ _ hz] at h2
      rw [hm'.2 (Or.inl h2)]

/-! ## A concrete case -/

/-- C89 in a concrete case: the second of the five time steps of `demoArgs`, given by plain numbers. -/
theorem C89_demo : ∃ r : Report,
    runEngine demoPvlib vertCfg (exampleBuilder vertArray) (.series demoArgs) = some r ∧
    runEngine demoPvlib vertCfg (exampleBuilder vertArray)
      (.numbers 1 600 110 45 270 90 270 (.inl (1 / 5)) none) = some (Report.atStep r 1) ∧
    (Report.atStep r 1).length = 4 ∧ ∀ e ∈ Report.atStep r 1, e.2.length = 1 := by
  obtain ⟨r, hr, _, hk, hlen⟩ := C13_demo
  have hr' : runEngine demoPvlib vertCfg (exampleBuilder vertArray) (.series demoArgs) = some r := by
    rw [runEngine_eq]; exact hr
  refine ⟨r, hr', C89_numbers _ _ _ demoArgs demoArgs_aligned ?_ r hr' ?_, ?_, ?_⟩
  · intro _ i hi
    have e : (⟨demoArgs.solarZenith.getD i 0, demoArgs.solarAzimuth.getD i 0,
        demoArgs.surfaceTilt.getD i 0, demoArgs.surfaceAzimuth.getD i 0⟩ : StepIn) = vertStep :=
      (demoArgs_step i hi).1
    rw [e]
    exact fun a ha => (vert_lengths a ha).imp_right le_of_lt
  · exact StepOf.intro _ _ _ _ _ _ _ _ _ rfl rfl rfl rfl rfl rfl rfl (Or.inl rfl)
      (Or.inl ⟨rfl, rfl⟩)
  · have := congrArg List.length hk
    simpa [Report.atStep] using this
  · intro e he
    obtain ⟨e', he', rfl⟩ := List.mem_map.1 he
    have := hlen e' he'
    rw [List.getElem?_eq_getElem (by omega)]; rfl

/-- C89 in a concrete case: at night (zenith 120) with a DNI of 500 the time step is marked, and the
illuminated ground gets a direct light of -250. -/
theorem C89_night_demo (c : EngineCfg) :
    ∃ st' marks, ∃ n, ∃ f : Fitted n, engineFitArgs demoPvlib c newEngine
        (.numbers 0 500 100 120 270 90 270 (.inl (1 / 5)) none) = some (st', marks) ∧
      marks = [true] ∧ st'.fitted = some ⟨n, f⟩ ∧
      ∀ t : Fin n, ∃ g, f.dict (.gnd false 0 0) .direct = some g ∧ g t = -250 := by
  obtain ⟨st', marks, n, f, h1, h2, h3, h4⟩ := C89_not_skipped demoPvlib c newEngine
    (FitArgs.numbers 0 500 100 120 270 90 270 (.inl (1 / 5)) none).arrays
    ⟨rfl, rfl, rfl, rfl, rfl, rfl, rfl, fun l hl => by cases hl⟩ (by simp [FitArgs.arrays])
  have hm := (C89_marks _ _ _ _ _ _ h1).1
  change n = 1 at h3
  subst h3
  refine ⟨st', marks, 1, f, h1, ?_, h2, fun t => ?_⟩
  · obtain ⟨g, _, _, h7⟩ := h4 0 0 0
    have := (h7 (by norm_num [FitArgs.arrays]) (by norm_num [FitArgs.arrays])
      (by norm_num [FitArgs.arrays])).2
    change marks.length = 1 at hm
    obtain ⟨m, rfl⟩ := List.length_eq_one_iff.1 hm
    simpa using this
  · obtain ⟨g, h5, h6, _⟩ := h4 t 0 0
    refine ⟨g, h5, ?_⟩
    have ht : t = 0 := Subsingleton.elim _ _
    rw [h6, ht]
    change (500 : ℝ) * cosd 120 = -250
    have : cosd 120 = -(1 / 2) := by
      unfold cosd deg2rad
      rw [show (120 : ℝ) * Real.pi / 180 = Real.pi - Real.pi / 3 by ring, Real.cos_pi_sub,
        Real.cos_pi_div_three]
    rw [this]; norm_num

end PVF
