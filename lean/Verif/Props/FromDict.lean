import Verif.Spec.FromDict
import Verif.Props.Time
import Verif.Props.FastDemo

/-!
# C78: runs from dictionaries of parameters
-/

namespace PVF

theorem num_eq_some {d : PyDict} {k : String} {x : ℝ} :
    d.num k = some x ↔ d.lookup k = some (.num x) := by
  unfold PyDict.num
  split
  · rename_i y h; rw [h]; simp
  · rename_i h; constructor
    · simp
    · intro h'; exact absurd h' (h x)

theorem int_eq_some {d : PyDict} {k : String} {x : ℕ} :
    d.int k = some x ↔ d.lookup k = some (.int x) := by
  unfold PyDict.int
  split
  · rename_i y h; rw [h]; simp
  · rename_i h; constructor
    · simp
    · intro h'; exact absurd h' (h x)

theorem numArg_eq_some {d : PyDict} {k : String} {a x : ℝ} :
    d.numArg k a = some x ↔ NumGiven d k a x := by
  unfold PyDict.numArg NumGiven
  split
  · rename_i h; rw [h]; simp [eq_comm]
  · rename_i y h; rw [h]; simp
  · rename_i h h'
    constructor
    · simp
    · rintro (h1 | ⟨h1, -⟩)
      · exact absurd h1 (h' x)
      · exact absurd h1 h

theorem intArg_eq_some {d : PyDict} {k : String} {a x : ℕ} :
    d.intArg k a = some x ↔ d.lookup k = some (.int x) ∨ d.lookup k = none ∧ x = a := by
  unfold PyDict.intArg
  split
  · rename_i h; rw [h]; simp [eq_comm]
  · rename_i y h; rw [h]; simp
  · rename_i h h'
    constructor
    · simp
    · rintro (h1 | ⟨h1, -⟩)
      · exact absurd h1 (h' x)
      · exact absurd h1 h

theorem faoiArg_iff {d : PyDict} {k : String} {f : Option (ℝ → ℝ)} :
    (∃ x, d.faoiArg k = some x ∧ x.resolve = f) ↔ FaoiGiven d k f := by
  unfold PyDict.faoiArg FaoiGiven
  split
  · rename_i h; rw [h]; simp [FaoiArg.resolve, eq_comm]
  · rename_i h; rw [h]; simp [FaoiArg.resolve, eq_comm]
  · rename_i y h; rw [h]
    cases y <;> simp [FaoiArg.resolve, eq_comm]
  · rename_i h0 h1 h2
    constructor
    · simp
    · rintro (⟨h | h | h, -⟩ | ⟨g, h | h, -⟩)
      · exact absurd h h0
      · exact absurd h h1
      · exact absurd h (h2 _)
      · exact absurd h (h2 _)
      · exact absurd h (h2 _)

/-- C78: `init_from_dict` makes an array exactly if the dictionary describes one, and then with the
parameters that it describes. -/
theorem C78_array (d : PyDict) (p : ArrayParams) : initFromDict d = some p ↔ Describes d p := by
  have hcut : ∀ c : List (ℕ × List (String × ℕ)), ∀ i,
      (cutSpecOf c i).front = (c.lookup i).bind (fun e => e.lookup "front") ∧
      (cutSpecOf c i).back = (c.lookup i).bind (fun e => e.lookup "back") := by
    intro c i
    cases h : c.lookup i <;> simp [cutSpecOf, h]
  have hext : ∀ f g : ℕ → CutSpec, (∀ i, (f i).front = (g i).front ∧ (f i).back = (g i).back) →
      f = g := by
    intro f g h
    funext i
    obtain ⟨h1, h2⟩ := h i
    cases hf : f i; cases hg : g i
    rw [hf, hg] at h1 h2
    simp only at h1 h2
    rw [h1, h2]
  constructor
  · intro h
    simp only [initFromDict, Option.bind_eq_bind, Option.bind_eq_some_iff, Option.pure_def,
      Option.some.injEq] at h
    obtain ⟨a, ha, g, hg, y, hy, n, hn, w, hw, c, hc, rfl⟩ := h
    refine ⟨num_eq_some.1 ha, num_eq_some.1 hg, num_eq_some.1 hy, num_eq_some.1 hw,
      int_eq_some.1 hn, ?_⟩
    unfold PyDict.cut at hc
    split at hc
    · rename_i h; obtain rfl := Option.some.inj hc
      exact Or.inl ⟨Or.inl h, fun i => by simp [cutSpecOf]⟩
    · rename_i h; obtain rfl := Option.some.inj hc
      exact Or.inl ⟨Or.inr h, fun i => by simp [cutSpecOf]⟩
    · rename_i c' h; obtain rfl := Option.some.inj hc
      exact Or.inr ⟨c', h, hcut c'⟩
    · simp at hc
  · intro h
    simp only [initFromDict, Option.bind_eq_bind, Option.bind_eq_some_iff, Option.pure_def,
      Option.some.injEq]
    rcases h.cut with ⟨hk, hc⟩ | ⟨c, hk, hc⟩
    · refine ⟨_, num_eq_some.2 h.axis, _, num_eq_some.2 h.gcr, _, num_eq_some.2 h.height, _,
        int_eq_some.2 h.rows, _, num_eq_some.2 h.width, [], ?_, ?_⟩
      · rcases hk with hk | hk <;> simp [PyDict.cut, hk]
      · have : cutSpecOf [] = p.cut := hext _ _ fun i => by
          rw [(hc i).1, (hc i).2]; simp [cutSpecOf]
        rw [this]
    · refine ⟨_, num_eq_some.2 h.axis, _, num_eq_some.2 h.gcr, _, num_eq_some.2 h.height, _,
        int_eq_some.2 h.rows, _, num_eq_some.2 h.width, c, ?_, ?_⟩
      · simp [PyDict.cut, hk]
      · have : cutSpecOf c = p.cut := hext _ _ fun i => by
          rw [(hc i).1, (hc i).2]; exact hcut c i
        rw [this]

theorem irrFromKwargs_iff (k : IrrKind) (d : PyDict) (q : IrrParams) :
    irrFromKwargs k d = some q ↔ IrrGiven k d q := by
  have hk : (∀ e ∈ d, e.1 ∈ k.argNames) ↔ ∀ e ∈ d, e.1 = "rho_front" ∨ e.1 = "rho_back" ∨
      e.1 = "module_transparency" ∨
      e.1 = "module_spacing_ratio" ∨ e.1 = "faoi_fn_front" ∨ e.1 = "faoi_fn_back" ∨
      (k = .hybridPerez ∧ (e.1 = "horizon_band_angle" ∨ e.1 = "circumsolar_angle" ∨
        e.1 = "circumsolar_model")) := by
    refine forall₂_congr fun e _ => ?_
    cases k <;> simp [IrrKind.argNames]
    tauto
  have hb : DEFAULT_HORIZON_BAND_ANGLE = (6.5 : ℝ) := by norm_num [DEFAULT_HORIZON_BAND_ANGLE]
  unfold irrFromKwargs
  split
  · rename_i h
    simp only [Option.bind_eq_bind, Option.bind_eq_some_iff, Option.pure_def, Option.some.injEq,
      numArg_eq_some, hb]
    constructor
    · rintro ⟨a, ha, b, hb, t, ht, s, hs, f, hf, g, hg, w, hw, rfl⟩
      exact ⟨hk.1 h, ha, hb, ht, hs, faoiArg_iff.1 ⟨f, hf, rfl⟩, faoiArg_iff.1 ⟨g, hg, rfl⟩, hw⟩
    · intro hq
      obtain ⟨f, hf, hf'⟩ := faoiArg_iff.2 hq.front
      obtain ⟨g, hg, hg'⟩ := faoiArg_iff.2 hq.back
      refine ⟨_, hq.rhoFront, _, hq.rhoBack, _, hq.transparency, _, hq.spacing, f, hf, g, hg, _,
        hq.band, ?_⟩
      simp only [irrParamsInit, hf', hg']
  · rename_i h
    simp only [reduceCtorEq, false_iff]
    intro hq
    exact h (hk.2 hq.known)

theorem calculatorFromKwargs_iff (d : PyDict) (m : Option AOIMethods) :
    calculatorFromKwargs d = some m ↔ CalculatorGiven d m := by
  have hk : (∀ e ∈ d, e.1 ∈ ["faoi_fn_front", "faoi_fn_back", "n_aoi_integral_sections"]) ↔
      ∀ e ∈ d, e.1 = "faoi_fn_front" ∨ e.1 = "faoi_fn_back" ∨
        e.1 = "n_aoi_integral_sections" := by
    refine forall₂_congr fun e _ => ?_
    simp
  have hm : ∀ (f b : FaoiArg) (n : ℕ), calculatorInit f b n = m ↔
      ((∃ f' b', f.resolve = some f' ∧ b.resolve = some b' ∧ m = some ⟨f', b', n⟩) ∨
        ((f.resolve = none ∨ b.resolve = none) ∧ m = none)) := by
    intro f b n
    cases f <;> cases b <;>
      simp [calculatorInit, calculatorAoiMethods, FaoiArg.resolve, eq_comm]
  unfold calculatorFromKwargs
  split
  · rename_i h
    simp only [Option.bind_eq_bind, Option.bind_eq_some_iff, Option.pure_def, Option.some.injEq,
      intArg_eq_some]
    constructor
    · rintro ⟨f, hf, g, hg, n, hn, rfl⟩
      exact ⟨hk.1 h, _, _, n, faoiArg_iff.1 ⟨f, hf, rfl⟩, faoiArg_iff.1 ⟨g, hg, rfl⟩, hn,
        (hm f g n).1 rfl⟩
    · rintro ⟨-, f, b, n, hf, hb, hn, h⟩
      obtain ⟨f, hf', rfl⟩ := faoiArg_iff.2 hf
      obtain ⟨b, hb', rfl⟩ := faoiArg_iff.2 hb
      exact ⟨f, hf', b, hb', n, hn, (hm f b n).2 h⟩
  · rename_i h
    simp only [reduceCtorEq, false_iff]
    intro hq
    exact h (hk.2 hq.known)

/-- C78: the dictionaries given to `run_timeseries_engine` make an engine exactly if they describe one,
with each value in its place and the documented default for each one that is missing. -/
theorem C78_engine (k : IrrKind) (array : PyDict) (irr vf : Option PyDict)
    (fastRow fastSegment : Option ℤ) (c : EngineCfg) :
    engineFromDicts k array irr vf fastRow fastSegment = some c ↔
      Describes array c.p ∧ IrrGiven k (irr.getD []) c.q ∧ CalculatorGiven (vf.getD []) c.aoi ∧
      c.kind = k ∧ c.fastRow = fastRow ∧ c.fastSegment = fastSegment := by
  simp only [engineFromDicts, Option.bind_eq_bind, Option.bind_eq_some_iff, Option.pure_def,
    Option.some.injEq, irrFromKwargs_iff, calculatorFromKwargs_iff, C78_array]
  constructor
  · rintro ⟨q, hq, a, ha, p, hp, rfl⟩
    exact ⟨hp, hq, ha, rfl, rfl, rfl⟩
  · rintro ⟨hp, hq, ha, rfl, rfl, rfl⟩
    exact ⟨_, hq, _, ha, _, hp, rfl⟩

variable {τ : Type} [Inhabited τ]

/-- C78: a run from dictionaries is the run of the engine that they describe. -/
theorem C78_run (P : Pvlib τ) (k : IrrKind) (array : PyDict) (irr vf : Option PyDict)
    (fastRow fastSegment : Option ℤ) (b : ArrayParams → Builder) (a : RunArgs τ) (c : EngineCfg)
    (hp : Describes array c.p) (hq : IrrGiven k (irr.getD []) c.q)
    (hm : CalculatorGiven (vf.getD []) c.aoi)
    (hc : c.kind = k ∧ c.fastRow = fastRow ∧ c.fastSegment = fastSegment) :
    runFromDicts P k array irr vf fastRow fastSegment b a = runSerial P c (b c.p) a := by
  have := (C78_engine k array irr vf fastRow fastSegment c).2 ⟨hp, hq, hm, hc⟩
  simp only [runFromDicts, this, Option.bind_eq_bind, Option.bind_some]

/-- C78: there is no result if one of the five required keys of the array is missing, or if an argument
of the irradiance model or of the calculator has an unknown name. -/
theorem C78_refused (P : Pvlib τ) (k : IrrKind) (array : PyDict) (irr vf : Option PyDict)
    (fastRow fastSegment : Option ℤ) (b : ArrayParams → Builder) (a : RunArgs τ)
    (h : (∃ key ∈ ["axis_azimuth", "gcr", "pvrow_height", "n_pvrows", "pvrow_width"],
        array.lookup key = none) ∨
      (∃ e ∈ irr.getD [], e.1 ∉ ["rho_front", "rho_back", "module_transparency",
        "module_spacing_ratio", "faoi_fn_front", "faoi_fn_back", "horizon_band_angle",
        "circumsolar_angle", "circumsolar_model"]) ∨
      (k = .isotropic ∧ ∃ e ∈ irr.getD [],
        e.1 ∈ ["horizon_band_angle", "circumsolar_angle", "circumsolar_model"]) ∨
      (∃ e ∈ vf.getD [], e.1 ∉ ["faoi_fn_front", "faoi_fn_back", "n_aoi_integral_sections"])) :
    runFromDicts P k array irr vf fastRow fastSegment b a = none := by
  have : engineFromDicts k array irr vf fastRow fastSegment = none := by
    rw [Option.eq_none_iff_forall_ne_some]
    intro c hc
    obtain ⟨hp, hq, hm, -⟩ := (C78_engine _ _ _ _ _ _ _).1 hc
    rcases h with ⟨key, hkey, hn⟩ | ⟨e, he, hn⟩ | ⟨rfl, e, he, hn⟩ | ⟨e, he, hn⟩
    · simp only [List.mem_cons, List.not_mem_nil, or_false] at hkey
      rcases hkey with rfl | rfl | rfl | rfl | rfl
      · rw [hp.axis] at hn; simp at hn
      · rw [hp.gcr] at hn; simp at hn
      · rw [hp.height] at hn; simp at hn
      · rw [hp.rows] at hn; simp at hn
      · rw [hp.width] at hn; simp at hn
    · have := hq.known e he
      simp only [List.mem_cons, List.not_mem_nil, or_false] at hn
      tauto
    · have := hq.known e he
      simp only [List.mem_cons, List.not_mem_nil, or_false] at hn
      rcases hn with hn | hn | hn <;> rw [hn] at this <;> simp at this
    · have := hm.known e he
      simp only [List.mem_cons, List.not_mem_nil, or_false] at hn
      tauto
  simp only [runFromDicts, this, Option.bind_eq_bind, Option.bind_none]

/-- C78: keys of the array dictionary other than the six documented ones, and the order of its keys,
have no effect. -/
theorem C78_other_keys (P : Pvlib τ) (k : IrrKind) (array array' : PyDict) (irr vf : Option PyDict)
    (fastRow fastSegment : Option ℤ) (b : ArrayParams → Builder) (a : RunArgs τ)
    (h : ∀ key ∈ ["axis_azimuth", "gcr", "pvrow_height", "n_pvrows", "pvrow_width", "cut"],
      array.lookup key = array'.lookup key) :
    runFromDicts P k array irr vf fastRow fastSegment b a
      = runFromDicts P k array' irr vf fastRow fastSegment b a := by
  have : initFromDict array = initFromDict array' := by
    have h1 := h "axis_azimuth" (by simp)
    have h2 := h "gcr" (by simp)
    have h3 := h "pvrow_height" (by simp)
    have h4 := h "n_pvrows" (by simp)
    have h5 := h "pvrow_width" (by simp)
    have h6 := h "cut" (by simp)
    simp only [initFromDict, PyDict.num, PyDict.int, PyDict.cut, h1, h2, h3, h4, h5, h6]
  simp only [runFromDicts, engineFromDicts, this]

/-- C78: `circumsolar_angle` and `circumsolar_model` have no effect on the results of a run. -/
theorem C78_circumsolar (P : Pvlib τ) (array irr : PyDict) (vf : Option PyDict) (x : PyVal)
    (key : String) (hkey : key = "circumsolar_angle" ∨ key = "circumsolar_model")
    (fastRow fastSegment : Option ℤ) (b : ArrayParams → Builder) (a : RunArgs τ) :
    runFromDicts P .hybridPerez array (some ((key, x) :: irr)) vf fastRow fastSegment b a
      = runFromDicts P .hybridPerez array (some irr) vf fastRow fastSegment b a := by
  have : irrFromKwargs .hybridPerez ((key, x) :: irr) = irrFromKwargs .hybridPerez irr := by
    have hl : ∀ key', key' ≠ "circumsolar_angle" → key' ≠ "circumsolar_model" →
        List.lookup key' ((key, x) :: irr) = List.lookup key' irr := by
      intro key' h1 h2
      rw [List.lookup_cons]
      have : (key' == key) = false := by
        rcases hkey with rfl | rfl <;> simpa
      simp [this]
    have hn : (∀ e ∈ ((key, x) :: irr : PyDict), e.1 ∈ IrrKind.argNames .hybridPerez) ↔
        ∀ e ∈ irr, e.1 ∈ IrrKind.argNames .hybridPerez := by
      simp only [List.forall_mem_cons]
      have : key ∈ IrrKind.argNames .hybridPerez := by
        rcases hkey with rfl | rfl <;> simp [IrrKind.argNames]
      tauto
    simp only [irrFromKwargs, hn, PyDict.numArg, PyDict.faoiArg]
    simp only [hl "rho_front" (by decide) (by decide), hl "rho_back" (by decide) (by decide),
      hl "module_transparency" (by decide) (by decide),
      hl "module_spacing_ratio" (by decide) (by decide),
      hl "faoi_fn_front" (by decide) (by decide), hl "faoi_fn_back" (by decide) (by decide),
      hl "horizon_band_angle" (by decide) (by decide)]
  simp only [runFromDicts, engineFromDicts, Option.getD_some, this]

/-- C78: an array made from a dictionary of scalars has the parameters and the single time step that
the dictionary describes; its view factors are those of this time step in any longer time series of
such an array. -/
theorem C78_scalars (d : PyDict) (p : ArrayParams) (u : Fin 1 → StepIn) :
    (fitFromDictOfScalars d = some (p, u) ↔ Describes d p ∧
      d.lookup "solar_zenith" = some (.num (u 0).solarZenith) ∧
      d.lookup "solar_azimuth" = some (.num (u 0).solarAzimuth) ∧
      d.lookup "surface_tilt" = some (.num (u 0).surfaceTilt) ∧
      d.lookup "surface_azimuth" = some (.num (u 0).surfaceAzimuth)) ∧
    (fitFromDictOfScalars d = some (p, u) → ∀ (n : ℕ) (v : Fin n → StepIn) (t : Fin n),
      v t = u 0 → PointOrLong p (u 0) → tsVfMatrix p u 0 = tsVfMatrix p v t) := by
  constructor
  · simp only [fitFromDictOfScalars, Option.bind_eq_bind, Option.bind_eq_some_iff, Option.pure_def,
      Option.some.injEq, Prod.mk.injEq, num_eq_some, C78_array]
    constructor
    · rintro ⟨p, hp, z, hz, a, ha, t, ht, s, hs, rfl, rfl⟩
      exact ⟨hp, hz, ha, ht, hs⟩
    · rintro ⟨hp, hz, ha, ht, hs⟩
      refine ⟨p, hp, _, hz, _, ha, _, ht, _, hs, rfl, ?_⟩
      funext t
      rw [Subsingleton.elim t 0]
  · intro _ n v t hv hl
    have := C15_view_factors p v (fun _ : Fin 1 => t) 0 (by rw [hv]; exact hl)
    rw [← this]
    congr 1
    funext t'
    rw [hv, Subsingleton.elim t' 0]

/-- C78: the parts of a dataframe are its index and the columns of these names, wherever they stand. -/
theorem C78_frame (df : Frame τ) :
    (∀ ts tilt surfAz zen az dni dhi,
      breakupDfInputs df = some (ts, tilt, surfAz, zen, az, dni, dhi) ↔
        ts = df.index ∧ df.columns.lookup "surface_tilt" = some tilt ∧
        df.columns.lookup "surface_azimuth" = some surfAz ∧
        df.columns.lookup "solar_zenith" = some zen ∧
        df.columns.lookup "solar_azimuth" = some az ∧
        df.columns.lookup "dni" = some dni ∧ df.columns.lookup "dhi" = some dhi) := by
  intro ts tilt surfAz zen az dni dhi
  simp only [breakupDfInputs, Option.bind_eq_bind, Option.bind_eq_some_iff, Option.pure_def,
    Option.some.injEq, Prod.mk.injEq]
  constructor
  · rintro ⟨_, h1, _, h2, _, h3, _, h4, _, h5, _, h6, rfl, rfl, rfl, rfl, rfl, rfl, rfl⟩
    exact ⟨rfl, h2, h1, h3, h4, h5, h6⟩
  · rintro ⟨rfl, h2, h1, h3, h4, h5, h6⟩
    exact ⟨_, h1, _, h2, _, h3, _, h4, _, h5, _, h6, rfl, rfl, rfl, rfl, rfl, rfl, rfl⟩

/-- The dictionary of the array with vertical rows, with angles and another key. -/
noncomputable def vertDict : PyDict :=
  [("n_pvrows", .int 2), ("owner", .str "x"), ("pvrow_height", .num (3 / 2)), ("gcr", .num (2 / 5)),
    ("pvrow_width", .num 2), ("axis_azimuth", .num 0), ("cut", .cut [(0, [("back", 2)])]),
    ("surface_tilt", .num 90), ("surface_azimuth", .num 270), ("solar_zenith", .num 45),
    ("solar_azimuth", .num 270)]

/-- C78, a case: the dictionary describes the array with vertical rows and its time step; with a
reflectivity, a fAOI function for the front only and no other arguments, the engine uses that
reflectivity, the defaults, the function in the irradiance model, and no AOI methods; an argument for
a horizon band is refused by the isotropic model. -/
theorem C78_demo (P : Pvlib τ) (b : ArrayParams → Builder) (a : RunArgs τ) (f : ℝ → ℝ) :
    initFromDict vertDict = some vertArray ∧
    fitFromDictOfScalars vertDict = some (vertArray, fun _ => vertStep) ∧
    runFromDicts P .hybridPerez vertDict
        (some [("rho_back", .num 0.05), ("circumsolar_angle", .num 10),
          ("faoi_fn_front", .faoi (.object f))])
        (some [("faoi_fn_front", .faoi (.function f))]) none none b a
      = runSerial P ⟨vertArray, .hybridPerez, ⟨0.01, 0.05, 0, 0, some f, none, 6.5⟩, none, none, none⟩
          (b vertArray) a ∧
    runFromDicts P .isotropic vertDict (some [("horizon_band_angle", .num 7)]) none none none b a
      = none := by
  have hp : Describes vertDict vertArray := by
    refine ⟨by rfl, by rfl, by rfl, by rfl, by rfl, Or.inr ⟨_, by rfl, fun i => ?_⟩⟩
    by_cases hi : i = 0
    · subst hi; exact ⟨rfl, rfl⟩
    · have : (i == 0) = false := by simpa using hi
      simp [vertArray, hi, List.lookup_cons, this]
  refine ⟨(C78_array _ _).2 hp, (C78_scalars _ _ _).1.2 ⟨hp, by rfl, by rfl, by rfl, by rfl⟩, ?_, ?_⟩
  · refine C78_run P .hybridPerez vertDict _ _ none none b a
      ⟨vertArray, .hybridPerez, ⟨0.01, 0.05, 0, 0, some f, none, 6.5⟩, none, none, none⟩ hp ?_ ?_
      ⟨rfl, rfl, rfl⟩
    · refine ⟨?_, Or.inr ⟨by rfl, rfl⟩, Or.inl (by rfl), Or.inr ⟨by rfl, rfl⟩, Or.inr ⟨by rfl, rfl⟩,
        Or.inr ⟨f, Or.inr (by rfl), rfl⟩, Or.inl ⟨Or.inl (by rfl), rfl⟩, Or.inr ⟨by rfl, rfl⟩⟩
      simp
    · refine ⟨by simp, some f, none, 300, Or.inr ⟨f, Or.inl (by rfl), rfl⟩,
        Or.inl ⟨Or.inl (by rfl), rfl⟩, Or.inr ⟨by rfl, rfl⟩, Or.inr ⟨Or.inr rfl, rfl⟩⟩
  · exact C78_refused P .isotropic vertDict _ none none none b a
      (Or.inr (Or.inr (Or.inl ⟨rfl, _, List.mem_cons_self, by simp⟩)))

end PVF
