import Verif.Props.Merge
import Verif.Props.State
import Verif.Props.FastDemo
import Verif.Props.Weighted

/-!
# C13: parallel and serial runs give the same report
-/

namespace PVF

/-! ## Restriction of a fitted engine to some of its time steps -/

/-- Keep the time steps `g`. -/
noncomputable def Fitted.reindex {n m : ℕ} (f : Fitted n) (g : Fin m → Fin n) : Fitted m where
  u := fun t => f.u (g t)
  attrs := fun t => f.attrs (g t)
  dict := fun a k => (f.dict a k).map fun x t => x (g t)

theorem Params.update_reindex {n m : ℕ} (g : Fin m → Fin n) (d : Params n)
    (w : List (PName × (Fin n → ℝ))) :
    (fun k => (d.update w k).map fun x t => x (g t))
      = Params.update (fun k => (d k).map fun x t => x (g t))
          (w.map fun e => (e.1, fun t => e.2 (g t))) := by
  unfold Params.update
  induction w generalizing d with
  | nil => rfl
  | cons e w ih =>
    rw [List.foldl_cons, ih, List.map_cons, List.foldl_cons]
    congr 1
    funext k
    by_cases h : k = e.1
    · subst h; simp
    · simp [Function.update_of_ne h]

theorem dict_foldl_reindex {n m : ℕ} (g : Fin m → Fin n) (w : SurfRef → List (PName × (Fin n → ℝ)))
    (l : List SurfRef) (d : SurfRef → Params n) :
    (fun a k => ((l.foldl (fun d a => Function.update d a ((d a).update (w a))) d) a k).map
        fun x t => x (g t) : SurfRef → Params m)
      = l.foldl (fun (d : SurfRef → Params m) a => Function.update d a ((d a).update
          ((w a).map fun e => (e.1, fun t => e.2 (g t)))))
        (fun a k => (d a k).map fun x t => x (g t)) := by
  induction l generalizing d with
  | nil => rfl
  | cons b l ih =>
    rw [List.foldl_cons, ih, List.foldl_cons]
    congr 1
    funext a
    by_cases h : a = b
    · subst h; simp only [Function.update_self]; exact Params.update_reindex g _ _
    · simp only [Function.update_of_ne h]

theorem fitDict_reindex (c : EngineCfg) {n m : ℕ} (v : Fin n → IrrIn) (g : Fin m → Fin n)
    (a : SurfRef) : (fun k => (fitDict c v a k).map fun x t => x (g t))
      = fitDict c (fun t => v (g t)) a := by
  unfold fitDict transformParams
  rw [Params.update_reindex]
  cases c.kind with
  | isotropic => rfl
  | hybridPerez =>
    rcases a with ⟨_, _, _⟩ | ⟨_, _ | _, _, _⟩ <;> rfl

/-- What an engine holds that has been fitted with `v` and not been run. -/
noncomputable def fitF (c : EngineCfg) {n : ℕ} (v : Fin n → IrrIn) : Fitted n where
  u := fun t => (v t).step
  attrs := fun t => irrAttrs c.kind c.q (v t)
  dict := fitDict c v

theorem fitF_reindex (c : EngineCfg) {n m : ℕ} (v : Fin n → IrrIn) (g : Fin m → Fin n) :
    (fitF c v).reindex g = fitF c fun t => v (g t) := by
  unfold fitF Fitted.reindex
  simp only [Fitted.mk.injEq, true_and]
  funext a
  exact fitDict_reindex c v g a

theorem fitF_fromInputs (c : EngineCfg) {n : ℕ} (v : Fin n → IrrIn) : (fitF c v).FromInputs c v :=
  ⟨rfl, rfl, fun _ _ _ => rfl⟩

theorem writeFull_reindex {n m : ℕ} (g : Fin m → Fin n) (f : Fitted n) (p : ArrayParams)
    (o : Fin n → FullOut) :
    (f.writeFull p o).reindex g = (f.reindex g).writeFull p fun t => o (g t) := by
  unfold Fitted.writeFull Fitted.reindex
  simp only [Fitted.mk.injEq, true_and]
  exact dict_foldl_reindex g _ _ _

theorem writeFasts_reindex {n m : ℕ} (g : Fin m → Fin n) (c : EngineCfg) (v : Fin n → IrrIn)
    (i : ℤ) (l : List SurfRef) :
    (l.foldl (fun f a => f.writeFast c i a) (fitF c v)).reindex g
      = l.foldl (fun f a => f.writeFast c i a) (fitF c fun t => v (g t)) := by
  have e1 : ∀ {k : ℕ} (f : Fitted k), (l.foldl (fun f a => f.writeFast c i a) f).u = f.u := by
    intro k f
    induction l generalizing f with
    | nil => rfl
    | cons a l ih => rw [List.foldl_cons, ih]; rfl
  have e2 : ∀ {k : ℕ} (f : Fitted k), (l.foldl (fun f a => f.writeFast c i a) f).attrs = f.attrs := by
    clear e1
    intro k f
    induction l generalizing f with
    | nil => rfl
    | cons a l ih => rw [List.foldl_cons, ih]; rfl
  have e3 : ∀ f f' : Fitted m, f.u = f'.u → f.attrs = f'.attrs → f.dict = f'.dict → f = f' := by
    rintro ⟨_, _, _⟩ ⟨_, _, _⟩ rfl rfl rfl; rfl
  apply e3
  · rw [e1]; unfold Fitted.reindex; rw [e1]; rfl
  · rw [e2]; unfold Fitted.reindex; rw [e2]; rfl
  · rw [Fitted.writeFasts_dict (fitF_fromInputs c fun t => v (g t))]
    unfold Fitted.reindex
    dsimp only
    rw [Fitted.writeFasts_dict (fitF_fromInputs c v), dict_foldl_reindex]
    congr 1
    funext a
    exact fitDict_reindex c v g a

/-! ## What a run leaves in the objects -/

/-- Contents of the array after a run. -/
structure RunOut (n : ℕ) where
  f : Fitted n
  vf : Option (Fin n → ℕ → ℕ → ℝ)
  vfAoi : Option (Fin n → ℕ → ℕ → ℝ)

noncomputable def RunOut.reindex {n m : ℕ} (r : RunOut n) (g : Fin m → Fin n) : RunOut m where
  f := r.f.reindex g
  vf := r.vf.map fun x t => x (g t)
  vfAoi := r.vfAoi.map fun x t => x (g t)

def RunOut.view {n : ℕ} (r : RunOut n) (t : Fin n) : StepView where
  u := r.f.u t
  dict := fun a k => (r.f.dict a k).map fun x => x t
  vf := r.vf.map fun x => x t
  vfAoi := r.vfAoi.map fun x => x t

theorem RunOut.view_reindex {n m : ℕ} (r : RunOut n) (g : Fin m → Fin n) (t : Fin m) :
    (r.reindex g).view t = r.view (g t) := by
  simp only [RunOut.view, RunOut.reindex, Fitted.reindex, Option.map_map, Function.comp_def]

def RunOut.state {n : ℕ} (r : RunOut n) : EngineState where
  fitted := some ⟨n, r.f⟩
  vf := r.vf.map fun x => ⟨n, x⟩
  vfAoi := r.vfAoi.map fun x => ⟨n, x⟩

open Classical in
/-- A run of a new engine with the inputs `v`, in the mode that is configured. -/
noncomputable def runOut (c : EngineCfg) {n : ℕ} (v : Fin n → IrrIn) : Option (RunOut n) :=
  match c.fastRow with
  | none => (fullResult c v).map fun o =>
    ⟨(fitF c v).writeFull c.p o, some fun t => (o t).vf, some fun t => (o t).vfAoi⟩
  | some i => if fastIndexOk c.p i c.fastSegment then
      some ⟨(fastTargets c.p i c.fastSegment).foldl (fun f a => f.writeFast c i a) (fitF c v),
        none, none⟩ else none

/-- Fit and run of a new engine: pvfactors/run.py lines 104-112. -/
noncomputable def afterRun (c : EngineCfg) {n : ℕ} (v : Fin n → IrrIn) : EngineState × Bool :=
  if c.fastRow.isNone then engineFull c (engineFit c newEngine v)
  else engineFast c (engineFit c newEngine v) none none

theorem afterRun_eq (c : EngineCfg) {n : ℕ} (v : Fin n → IrrIn) :
    match runOut c v with
    | none => (afterRun c v).2 = false
    | some r => afterRun c v = (r.state, true) := by
  have hfrom := engineFit_fromInputs c newEngine v
  unfold runOut afterRun
  cases hrow : c.fastRow with
  | none =>
    simp only [Option.isNone_none, if_true]
    obtain ⟨f, hf, hi, e⟩ := hfrom.full_eq
    have hff : f = fitF c v := by
      have : (engineFit c newEngine v).fitted = some ⟨n, fitF c v⟩ := rfl
      rw [this] at hf; injection hf with hf; injection hf with _ hf; exact hf.symm
    rw [e]
    cases fullResult c v with
    | none => rfl
    | some o => subst hff; rfl
  | some i =>
    have hor : (if (none : Option ℤ).isNone then c.fastSegment else none) = c.fastSegment := rfl
    have hst : (engineFit c newEngine v).fitted = some ⟨n, fitF c v⟩ := rfl
    have e : engineFast c (engineFit c newEngine v) none none = engineFast c (engineFit c newEngine v) none none := rfl
    conv_rhs at e => unfold engineFast
    rw [hst] at e
    simp only [Option.isNone_none, if_true, hrow] at e
    have hp : (fitF c v).hasParams (fastTargets c.p i c.fastSegment) c.kind.comp :=
      fun a ha k hk => (fitF_fromInputs c v).hasParams _ a ha k (by simp [hk])
    by_cases hok : fastIndexOk c.p i c.fastSegment
    · rw [if_pos ⟨hok, hp⟩] at e
      simp only [Option.isNone_some, Bool.false_eq_true, if_false, hok, if_true]
      rw [e]; rfl
    · rw [if_neg fun h => hok h.1] at e
      simp only [Option.isNone_some, Bool.false_eq_true, if_false, hok]
      rw [e]

/-- In full mode, time steps must not have very short surfaces (C15). -/
def StepSafe (c : EngineCfg) (x : IrrIn) : Prop := c.fastRow = none → PointOrLong c.p x.step

theorem runOut_reindex (c : EngineCfg) {n m : ℕ} (v : Fin n → IrrIn) (g : Fin m → Fin n)
    (hs : ∀ t, StepSafe c (v (g t))) (r : RunOut n) (h : runOut c v = some r) :
    runOut c (fun t => v (g t)) = some (r.reindex g) := by
  unfold runOut at h ⊢
  cases hrow : c.fastRow with
  | none =>
    rw [hrow] at h
    simp only [Option.map_eq_some_iff] at h ⊢
    obtain ⟨o, ho, rfl⟩ := h
    refine ⟨fun t => o (g t), C15_full_mode c.p _ _ c.aoi o ho g fun t => hs t hrow, ?_⟩
    rw [RunOut.reindex, writeFull_reindex, fitF_reindex]
    rfl
  | some i =>
    rw [hrow] at h
    dsimp only at h ⊢
    split_ifs at h ⊢
    simp only [Option.some.injEq] at h ⊢
    rw [← h, RunOut.reindex, writeFasts_reindex]
    rfl

/-- A single time step can be run. -/
def StepOk (c : EngineCfg) (x : IrrIn) : Prop := (runOut c fun _ : Fin 1 => x).isSome

/-- The empty time series can be run. -/
def ZeroOk (c : EngineCfg) : Prop := (runOut c fun t : Fin 0 => t.elim0).isSome

theorem runOut_isSome (c : EngineCfg) {n : ℕ} (v : Fin n → IrrIn) (hs : ∀ t, StepSafe c (v t)) :
    (runOut c v).isSome ↔ ZeroOk c ∧ ∀ t, StepOk c (v t) := by
  classical
  constructor
  · intro h
    obtain ⟨r, hr⟩ := Option.isSome_iff_exists.1 h
    refine ⟨?_, fun t => ?_⟩
    · have := runOut_reindex c v (fun t : Fin 0 => t.elim0) (fun t => t.elim0) r hr
      unfold ZeroOk
      have e : (fun t : Fin 0 => v (t.elim0)) = fun t : Fin 0 => t.elim0 := by
        funext t; exact t.elim0
      rw [← e, this]; rfl
    · have := runOut_reindex c v (fun _ : Fin 1 => t) (fun _ => hs t) r hr
      unfold StepOk
      rw [this]; rfl
  · rintro ⟨h0, h⟩
    unfold StepOk ZeroOk at *
    unfold runOut at h0 h ⊢
    cases hrow : c.fastRow with
    | some i =>
      rw [hrow] at h0
      dsimp only at h0 ⊢
      split_ifs at h0 ⊢ with hok
      · rfl
      · exact h0
    | none =>
      rw [hrow] at h
      simp only [Option.isSome_map] at h ⊢
      unfold fullResult runFullMode at h ⊢
      rw [if_pos]
      · rfl
      · intro t
        have h1 := h t
        split_ifs at h1 with hu
        · have := hu 0
          have e := C15_view_factors c.p (fun t => (v t).step) (fun _ : Fin 1 => t) 0 (hs t hrow)
          rw [e] at this
          exact this
        · cases h1

open Classical in
/-- Contents after a run of a single time step. -/
noncomputable def stepView (c : EngineCfg) (x : IrrIn) : StepView :=
  if h : StepOk c x then ((runOut c fun _ : Fin 1 => x).get h).view 0 else ⟨x.step, fun _ _ => none, none, none⟩

theorem runOut_view (c : EngineCfg) {n : ℕ} (v : Fin n → IrrIn) (hs : ∀ t, StepSafe c (v t))
    (r : RunOut n) (h : runOut c v = some r) (t : Fin n) : r.view t = stepView c (v t) := by
  have := runOut_reindex c v (fun _ : Fin 1 => t) (fun _ => hs t) r h
  have hok : StepOk c (v t) := by unfold StepOk; rw [this]; rfl
  unfold stepView
  rw [dif_pos hok]
  have e : (runOut c fun _ : Fin 1 => v t).get hok = r.reindex fun _ => t := by
    apply Option.some_injective
    exact (Option.some_get _).trans this
  rw [e, RunOut.view_reindex]

/-- The parameters that the report reads are there. -/
def NeedsOk (c : EngineCfg) (b : Builder) : Prop :=
  ∃ r, runOut c (fun t : Fin 0 => t.elim0) = some r ∧
    ∀ f ∈ b.fields, ∀ x ∈ f.needs, (r.f.dict x.1 x.2).isSome

theorem runOut_needs (c : EngineCfg) (b : Builder) {n : ℕ} (v : Fin n → IrrIn)
    (r : RunOut n) (h : runOut c v = some r) :
    NeedsOk c b ↔ ∀ f ∈ b.fields, ∀ x ∈ f.needs, (r.f.dict x.1 x.2).isSome := by
  have := runOut_reindex c v (fun t : Fin 0 => t.elim0) (fun t => t.elim0) r h
  have e : (fun t : Fin 0 => v (t.elim0)) = fun t : Fin 0 => t.elim0 := by
    funext t; exact t.elim0
  rw [e] at this
  unfold NeedsOk
  rw [this]
  simp [RunOut.reindex, Fitted.reindex]

theorem RunOut.views_eq {n : ℕ} (r : RunOut n) : r.state.views = List.ofFn r.view := by
  unfold EngineState.views RunOut.state RunOut.view
  dsimp only
  congr 1
  funext t
  cases r.vf <;> cases r.vfAoi <;> simp [TsMatrix.at]

open Classical in
/-- The report of a run is computed time step by time step. -/
theorem run_report (c : EngineCfg) (b : Builder) (l : List IrrIn) (hs : ∀ x ∈ l, StepSafe c x) :
    (if (afterRun c fun t : Fin l.length => l.get t).2 then
        b.build (afterRun c fun t : Fin l.length => l.get t).1 else none)
      = if (b.valid = true ∧ ZeroOk c ∧ NeedsOk c b) ∧ ∀ x ∈ l, StepOk c x then
          some (b.fields.map fun f => (f.key, l.map fun x => f.value (stepView c x)))
        else none := by
  have hs' : ∀ t : Fin l.length, StepSafe c (l.get t) := fun t => hs _ (l.get_mem t)
  have hiff := runOut_isSome c (fun t : Fin l.length => l.get t) hs'
  have hall : (∀ t : Fin l.length, StepOk c (l.get t)) ↔ ∀ x ∈ l, StepOk c x := by
    constructor
    · intro h x hx
      obtain ⟨t, rfl⟩ := List.mem_iff_get.1 hx
      exact h t
    · intro h t; exact h _ (l.get_mem t)
  have he := afterRun_eq c fun t : Fin l.length => l.get t
  cases hr : runOut c (fun t : Fin l.length => l.get t) with
  | none =>
    rw [hr] at he hiff
    dsimp only at he
    rw [if_neg (by rw [he]; simp), if_neg]
    rintro ⟨⟨_, h0, _⟩, h⟩
    have := hiff.2 ⟨h0, hall.2 h⟩
    cases this
  | some r =>
    rw [hr] at he hiff
    dsimp only at he
    have hyes := hiff.1 rfl
    rw [he]
    simp only [if_true]
    have hneeds := runOut_needs c b _ r hr
    unfold Builder.build
    have hhas : (∀ f ∈ b.fields, ∀ x ∈ f.needs, r.state.has x.1 x.2) ↔ NeedsOk c b := hneeds.symm
    have hcond : (b.valid = true ∧ ∀ f ∈ b.fields, ∀ x ∈ f.needs, r.state.has x.1 x.2) ↔
        ((b.valid = true ∧ ZeroOk c ∧ NeedsOk c b) ∧ ∀ x ∈ l, StepOk c x) := by
      rw [hhas]
      constructor
      · rintro ⟨h1, h2⟩; exact ⟨⟨h1, hyes.1, h2⟩, hall.1 hyes.2⟩
      · rintro ⟨⟨h1, _, h2⟩, _⟩; exact ⟨h1, h2⟩
    rw [if_congr hcond rfl rfl]
    congr 2
    refine List.map_congr_left fun f _ => ?_
    rw [RunOut.views_eq, show r.view = fun t => stepView c (l.get t) from
      funext fun t => runOut_view c _ hs' r hr t, List.map_ofFn]
    congr 1
    conv_rhs => rw [← List.ofFn_get l, List.map_ofFn]
    rfl

/-! ## Inputs of the folds -/

variable {τ : Type} [Inhabited τ]

open Classical in
/-- Inputs of the irradiance model at time step `i`. -/
noncomputable def inputAt (P : Pvlib τ) (a : RunArgs τ) (i : ℕ) : IrrIn :=
  let ghi := a.ghi.map fun l => l.getD i 0
  { dni := a.dni.getD i 0
    dhi := a.dhi.getD i 0
    solarZenith := a.solarZenith.getD i 0
    solarAzimuth := a.solarAzimuth.getD i 0
    surfaceTilt := a.surfaceTilt.getD i 0
    surfaceAzimuth := a.surfaceAzimuth.getD i 0
    albedo := a.albedoList.getD i 0
    ghi := ghi
    poaGlobal := P.poaGlobal (a.surfaceTilt.getD i 0) (a.surfaceAzimuth.getD i 0)
      (a.solarZenith.getD i 0) (a.solarAzimuth.getD i 0) (a.dni.getD i 0)
      (ghi.getD (a.dni.getD i 0 * cosd (a.solarZenith.getD i 0) + a.dhi.getD i 0))
      (a.dhi.getD i 0) (a.albedoList.getD i 0)
    perez :=
      let r := a.perezIn P i
      if r.hitsBack then
        { r.ownOut P.perez with
          luminanceCircumsolar := (r.flip.ownOut P.perez).luminanceCircumsolar }
      else r.ownOut P.perez }

open Classical in
theorem inputs_eq (P : Pvlib τ) (a : RunArgs τ) (ha : a.Aligned) :
    a.inputs P = if a.dni ≠ [] ∨ P.emptyOk = true then
      some ((List.range a.dni.length).map (inputAt P a)) else none := by
  unfold RunArgs.inputs
  by_cases h : a.dni ≠ [] ∨ P.emptyOk = true
  · rw [if_pos ⟨ha, h⟩, if_pos h, show 1000 = 998 + 2 from rfl, C36_rowwise]
    simp only [Option.map_some, List.map_map, List.zipWith_map_right, List.zipWith_self]
    rfl
  · rw [if_neg fun h' => h h'.2, if_neg h]

/-- Entries `s` to `e` of a list. -/
def slice {α : Type*} (l : List α) (s e : ℕ) : List α := (l.take e).drop s

theorem slice_getD {α : Type*} (l : List α) (s e j : ℕ) (d : α) (h : j < e - s) :
    (slice l s e).getD j d = l.getD (s + j) d := by
  simp only [slice, List.getD_eq_getElem?_getD, List.getElem?_drop]
  rw [List.getElem?_take_of_lt (by omega)]

theorem slice_length {α : Type*} (l : List α) (s e : ℕ) (h : e ≤ l.length) :
    (slice l s e).length = e - s := by simp [slice, h]

/-- The arguments restricted to a range of time steps. -/
noncomputable def sliceArgs (a : RunArgs τ) (s e : ℕ) : RunArgs τ where
  timestamps := slice a.timestamps s e
  dni := slice a.dni s e
  dhi := slice a.dhi s e
  solarZenith := slice a.solarZenith s e
  solarAzimuth := slice a.solarAzimuth s e
  surfaceTilt := slice a.surfaceTilt s e
  surfaceAzimuth := slice a.surfaceAzimuth s e
  albedo := .inr (slice a.albedoList s e)
  ghi := a.ghi.map fun l => slice l s e

theorem foldArgs_eq (a : RunArgs τ) (ha : a.Aligned) (n : ℤ) (hn : 0 < n) :
    foldArgs a n = some ((List.range n.toNat).map fun i =>
      sliceArgs a (divPt a.dni.length n.toNat i) (divPt a.dni.length n.toNat (i + 1))) := by
  obtain ⟨h1, h2, h3, h4, h5, h6, h7, h8⟩ := ha
  have getD_map : ∀ {α : Type} (f : ℕ → α) (d : α) (i : ℕ), i < n.toNat →
      ((List.range n.toNat).map f).getD i d = f i := by
    intro α f d i hi
    rw [List.getD_eq_getElem _ _ (by simpa using hi)]; simp
  unfold foldArgs
  simp only [arraySplit_eq _ hn, Option.bind_eq_bind, Option.bind_some, Option.pure_def]
  cases hg : a.ghi with
  | none =>
    simp only [Option.bind_some, Option.some.injEq]
    refine List.map_congr_left fun i hi => ?_
    have hi := List.mem_range.1 hi
    simp only [getD_map _ _ _ hi, h1, h2, h3, h4, h5, h6, h7, sliceArgs, slice, hg, Option.map_none]
    congr 1
    simp [List.getD_eq_getElem?_getD, hi]
  | some g =>
    simp only [Option.map_some, Option.bind_some, Option.some.injEq, List.map_map]
    refine List.map_congr_left fun i hi => ?_
    have hi := List.mem_range.1 hi
    simp only [getD_map _ _ _ hi, h1, h2, h3, h4, h5, h6, h7, h8 g hg, sliceArgs, slice, hg,
      Option.map_some, Function.comp_apply]

theorem sliceArgs_aligned (a : RunArgs τ) (ha : a.Aligned) (s e : ℕ) (he : e ≤ a.dni.length) :
    (sliceArgs a s e).Aligned := by
  obtain ⟨h1, h2, h3, h4, h5, h6, h7, h8⟩ := ha
  have key : ∀ {α : Type} (l : List α), l.length = a.dni.length →
      (slice l s e).length = (slice a.dni s e).length := by
    intro α l hl
    rw [slice_length _ _ _ (by rw [hl]; exact he), slice_length _ _ _ he]
  refine ⟨key _ h1, key _ h2, key _ h3, key _ h4, key _ h5, key _ h6, key _ h7, ?_⟩
  intro l hl
  simp only [sliceArgs, Option.map_eq_some_iff] at hl ⊢
  obtain ⟨g, hg, rfl⟩ := hl
  exact key _ (h8 g hg)

theorem inputAt_slice (P : Pvlib τ) (a : RunArgs τ) (s e j : ℕ) (h : j < e - s) :
    inputAt P (sliceArgs a s e) j = inputAt P a (s + j) := by
  have hp : (sliceArgs a s e).perezIn P j = a.perezIn P (s + j) := by
    unfold RunArgs.perezIn
    simp only [sliceArgs, slice_getD _ _ _ _ _ h]
  unfold inputAt
  rw [hp]
  have hal : (sliceArgs a s e).albedoList = slice a.albedoList s e := rfl
  rw [hal]
  simp only [sliceArgs, slice_getD _ _ _ _ _ h, Option.map_map, Function.comp_def]

open Classical in
theorem slice_inputs (P : Pvlib τ) (a : RunArgs τ) (ha : a.Aligned) (s e : ℕ)
    (he : e ≤ a.dni.length) :
    (sliceArgs a s e).inputs P = if slice ((List.range a.dni.length).map (inputAt P a)) s e ≠ []
        ∨ P.emptyOk = true then
      some (slice ((List.range a.dni.length).map (inputAt P a)) s e) else none := by
  rw [inputs_eq P _ (sliceArgs_aligned a ha s e he)]
  have hl : slice ((List.range a.dni.length).map (inputAt P a)) s e
      = (List.range (sliceArgs a s e).dni.length).map (inputAt P (sliceArgs a s e)) := by
    apply List.ext_getElem
    · rw [slice_length _ _ _ (by simpa using he)]
      simp [sliceArgs, slice_length _ _ _ he]
    · intro i h1 h2
      rw [slice_length _ _ _ (by simpa using he)] at h1
      simp only [slice, List.getElem_drop, List.getElem_take, List.getElem_map,
        List.getElem_range]
      rw [inputAt_slice P a s e i h1]
  rw [hl]
  have hne : ((sliceArgs a s e).dni ≠ []) ↔
      (List.range (sliceArgs a s e).dni.length).map (inputAt P (sliceArgs a s e)) ≠ [] := by
    simp [List.range_eq_nil]
  rw [if_congr (or_congr_left hne) rfl rfl]

/-! ## The runs -/

/-- Report for a list of inputs. -/
noncomputable def reportOf (c : EngineCfg) (b : Builder) (l : List IrrIn) : Report :=
  b.fields.map fun f => (f.key, l.map fun x => f.value (stepView c x))

/-- Conditions that do not depend on the time series. -/
def RunOk (c : EngineCfg) (b : Builder) : Prop := b.valid = true ∧ ZeroOk c ∧ NeedsOk c b

open Classical in
theorem runSerial_of_inputs (P : Pvlib τ) (c : EngineCfg) (b : Builder) (a : RunArgs τ)
    (l : List IrrIn)
    (hl : a.inputs P = if l ≠ [] ∨ P.emptyOk = true then some l else none)
    (hs : ∀ x ∈ l, StepSafe c x) :
    runSerial P c b a = if (l ≠ [] ∨ P.emptyOk = true) ∧ RunOk c b ∧ ∀ x ∈ l, StepOk c x then
      some (reportOf c b l) else none := by
  unfold runSerial
  rw [hl]
  by_cases h : l ≠ [] ∨ P.emptyOk = true
  · rw [if_pos h]
    have := run_report c b l hs
    unfold afterRun at this
    dsimp only
    rw [this]
    have hc : ((b.valid = true ∧ ZeroOk c ∧ NeedsOk c b) ∧ ∀ x ∈ l, StepOk c x) ↔
        ((l ≠ [] ∨ P.emptyOk = true) ∧ RunOk c b ∧ ∀ x ∈ l, StepOk c x) :=
      ⟨fun h' => ⟨h, h'⟩, fun h' => h'.2⟩
    rw [if_congr hc rfl rfl]
    rfl
  · rw [if_neg h, if_neg fun h' => h h'.1]

open Classical in
theorem mapM_ite {α β : Type} (l : List α) (q : α → Prop) (g : α → β) (F : α → Option β)
    (hF : ∀ x ∈ l, F x = if q x then some (g x) else none) :
    l.mapM F = if ∀ x ∈ l, q x then some (l.map g) else none := by
  induction l with
  | nil => simp
  | cons x l ih =>
    rw [List.mapM_cons, hF x List.mem_cons_self, ih fun y hy => hF y (List.mem_cons_of_mem _ hy)]
    by_cases hx : q x
    · by_cases hl : ∀ y ∈ l, q y
      · have : ∀ y ∈ x :: l, q y := by simpa [hx] using hl
        rw [if_pos hx, if_pos hl, if_pos this]; rfl
      · have : ¬ ∀ y ∈ x :: l, q y := fun h => hl fun y hy => h y (List.mem_cons_of_mem _ hy)
        rw [if_pos hx, if_neg hl, if_neg this]; rfl
    · have : ¬ ∀ y ∈ x :: l, q y := fun h => hx (h x List.mem_cons_self)
      rw [if_neg hx, if_neg this]; rfl

theorem reportOf_lookup (c : EngineCfg) (b : Builder) (hb : (b.fields.map Field.key).Nodup)
    (l : List IrrIn) (f : Field) (hf : f ∈ b.fields) :
    (reportOf c b l).lookup f.key = some (l.map fun x => f.value (stepView c x)) := by
  unfold reportOf
  obtain ⟨_, fields⟩ := b
  dsimp only at hb hf ⊢
  induction fields with
  | nil => simp at hf
  | cons f' fs ih =>
    simp only [List.map_cons, List.nodup_cons, List.mem_map, not_exists, not_and] at hb
    rw [List.map_cons, List.lookup_cons]
    rcases List.mem_cons.1 hf with rfl | hf
    · simp
    · have : (f.key == f'.key) = false := by
        simp only [beq_eq_false_iff_ne, ne_eq]; exact hb.1 f hf
      rw [this]
      exact ih hb.2 hf

theorem merge_reports (c : EngineCfg) (b : Builder) (hb : (b.fields.map Field.key).Nodup)
    (ls : List (List IrrIn)) (hne : ls ≠ []) :
    mergeReports (ls.map (reportOf c b)) = some (reportOf c b ls.flatten) := by
  classical
  obtain ⟨l, ls, rfl⟩ := List.exists_cons_of_ne_nil hne
  rw [List.map_cons, mergeReports_eq, if_pos]
  · congr 1
    conv_rhs => unfold reportOf
    conv_lhs => unfold reportOf
    rw [List.map_map]
    refine List.map_congr_left fun f hf => ?_
    simp only [Function.comp_apply, List.flatten_cons, List.map_append, Prod.mk.injEq, true_and]
    congr 1
    unfold valuesOf
    rw [List.flatMap_map, List.map_flatten]
    rw [List.flatMap_def]
    congr 1
    refine List.map_congr_left fun l' _ => ?_
    have := reportOf_lookup c b hb l' f hf
    unfold reportOf at this
    rw [this]; rfl
  · intro o ho e he
    obtain ⟨l', _, rfl⟩ := List.mem_map.1 ho
    unfold reportOf at he
    obtain ⟨f, hf, rfl⟩ := List.mem_map.1 he
    rw [reportOf_lookup c b hb l' f hf]; rfl

theorem collect_perm (l : List Report) (indexed : List (Report × ℕ)) (h : indexed.Perm l.zipIdx) :
    collect indexed = mergeReports l := by
  unfold collect
  have : indexed.insertionSort (fun x y => x.2 ≤ y.2) = l.zipIdx := by
    refine List.Perm.eq_of_pairwise (le := fun x y => x.2 ≤ y.2) ?_ ?_ ?_
      ((List.perm_insertionSort _ _).trans h)
    · intro x y hx hy h1 h2
      have hx' : x ∈ l.zipIdx := h.mem_iff.1 ((List.mem_insertionSort _).1 hx)
      obtain ⟨x1, x2⟩ := x
      obtain ⟨y1, y2⟩ := y
      have e : x2 = y2 := le_antisymm h1 h2
      subst e
      have a1 := List.mem_zipIdx hx'
      have a2 := List.mem_zipIdx hy
      rw [a1.2.2, a2.2.2]
    · exact List.pairwise_insertionSort _ _
    · rw [List.pairwise_iff_getElem]
      intro i j hi hj hij
      simp; omega
  rw [this]
  simp

/-- **C13.**  For every time series (of equal lengths, albedo scalar or list, with or without ghi),
every engine configuration (either irradiance model, with or without AOI methods, full or fast
mode), every report that is computed time step by time step, every number of processes (-1 for all
CPUs) and every order in which the workers deliver their results, the parallel run returns the same
report as the serial run, or both raise an exception.  More processes than time steps are fine if
pandas and pvlib accept empty series.  In full mode no surface may be longer than zero but shorter
than the tolerance (see C15). -/
theorem C13_parallel_eq_serial (P : Pvlib τ) (c : EngineCfg) (b : Builder)
    (hb : (b.fields.map Field.key).Nodup) (a : RunArgs τ) (ha : a.Aligned) (cpus : ℕ) (n : ℤ)
    (hn : 0 < n ∨ n = -1 ∧ 0 < cpus)
    (hne : P.emptyOk = true ∨ n ≤ a.dni.length ∧ (n = -1 → cpus ≤ a.dni.length))
    (arrive : List (Report × ℕ) → List (Report × ℕ)) (harrive : ∀ l, (arrive l).Perm l)
    (hs : c.fastRow = none → ∀ i < a.dni.length, PointOrLong c.p
      ⟨a.solarZenith.getD i 0, a.solarAzimuth.getD i 0, a.surfaceTilt.getD i 0,
        a.surfaceAzimuth.getD i 0⟩) :
    runParallel P c b cpus n arrive a = runSerial P c b a := by
  classical
  replace hne : P.emptyOk = true ∨ workers cpus n ≤ a.dni.length := by
    refine hne.imp id fun h => ?_
    unfold workers
    split_ifs <;> omega
  replace hn : 0 < workers cpus n := by
    unfold workers
    split_ifs <;> omega
  set w := workers cpus n with hw
  obtain ⟨k, hk⟩ : ∃ k : ℕ, w = k := ⟨w.toNat, by omega⟩
  have hk0 : 0 < k := by omega
  set N := a.dni.length with hN
  set L := (List.range N).map (inputAt P a) with hL
  have hLlen : L.length = N := by simp [hL]
  have hsafe : ∀ x ∈ L, StepSafe c x := by
    intro x hx hfast
    obtain ⟨i, hi, rfl⟩ := List.mem_map.1 hx
    exact hs hfast i (List.mem_range.1 hi)
  have hnil : (a.dni ≠ []) ↔ L ≠ [] := by
    rw [← List.length_pos_iff, ← List.length_pos_iff, hLlen]
  have hser := runSerial_of_inputs P c b a L
    (by rw [inputs_eq P a ha, if_congr (or_congr_left hnil) rfl rfl]) hsafe
  set S := fun i => slice L (divPt N k i) (divPt N k (i + 1)) with hS
  have hflat : ((List.range k).map S).flatten = L := by
    have := flatten_slices L (divPt N k) (divPt_mono N k) k
    rw [divPt_last hk0, divPt_zero, ← hLlen, List.take_length, List.drop_zero, hLlen] at this
    exact this
  have hle : ∀ i < k, divPt N k (i + 1) ≤ N := fun i hi => by
    have := divPt_mono N k (show i + 1 ≤ k by omega)
    rwa [divPt_last hk0] at this
  have hsub : ∀ i, ∀ x ∈ S i, x ∈ L := fun i x hx =>
    List.mem_of_mem_take (List.mem_of_mem_drop hx)
  have hwork : ∀ i ∈ List.range k, runSerial P c b
      (sliceArgs a (divPt N k i) (divPt N k (i + 1)))
      = if (S i ≠ [] ∨ P.emptyOk = true) ∧ RunOk c b ∧ ∀ x ∈ S i, StepOk c x then
        some (reportOf c b (S i)) else none := by
    intro i hi
    exact runSerial_of_inputs P c b _ (S i)
      (slice_inputs P a ha _ _ (hle i (List.mem_range.1 hi))) fun x hx => hsafe x (hsub i x hx)
  have hmap := mapM_ite (List.range k)
    (fun i => (S i ≠ [] ∨ P.emptyOk = true) ∧ RunOk c b ∧ ∀ x ∈ S i, StepOk c x)
    (fun i => reportOf c b (S i))
    (fun i => runSerial P c b (sliceArgs a (divPt N k i) (divPt N k (i + 1))))
    (by intro i hi; rw [hwork i hi]; congr)
  unfold runParallel workerReports
  rw [← hw, foldArgs_eq a ha w hn, hk, Int.toNat_natCast]
  simp only [Option.bind_eq_bind, Option.bind_some, List.mapM_map]
  rw [show ((fun a => runSerial P c b a) ∘ fun i =>
    sliceArgs a (divPt a.dni.length k i) (divPt a.dni.length k (i + 1)))
    = fun i => runSerial P c b (sliceArgs a (divPt N k i) (divPt N k (i + 1))) from rfl, hmap, hser]
  have hcond : (∀ i ∈ List.range k,
      (S i ≠ [] ∨ P.emptyOk = true) ∧ RunOk c b ∧ ∀ x ∈ S i, StepOk c x) ↔
      ((L ≠ [] ∨ P.emptyOk = true) ∧ RunOk c b ∧ ∀ x ∈ L, StepOk c x) := by
    constructor
    · intro h
      have h0 := h 0 (List.mem_range.2 hk0)
      refine ⟨?_, h0.2.1, ?_⟩
      · rcases h0.1 with h1 | h1
        · left
          obtain ⟨x, hx⟩ := List.exists_mem_of_ne_nil _ h1
          exact List.ne_nil_of_mem (hsub 0 x hx)
        · exact Or.inr h1
      · intro x hx
        rw [← hflat] at hx
        obtain ⟨l, hl, hxl⟩ := List.mem_flatten.1 hx
        obtain ⟨i, hi, rfl⟩ := List.mem_map.1 hl
        exact (h i hi).2.2 x hxl
    · rintro ⟨_, h2, h3⟩ i hi
      refine ⟨?_, h2, fun x hx => h3 x (hsub i x hx)⟩
      rcases hne with h | h
      · exact Or.inr h
      · left
        have hik := List.mem_range.1 hi
        rw [← List.length_pos_iff, hS, slice_length _ _ _ (by rw [hLlen]; exact hle i hik),
          divPt_succ]
        have : 0 < N / k := Nat.div_pos (by omega) hk0
        rw [Nat.add_sub_cancel_left]
        exact Nat.add_pos_left this _
  by_cases h : (L ≠ [] ∨ P.emptyOk = true) ∧ RunOk c b ∧ ∀ x ∈ L, StepOk c x
  · rw [if_pos h, if_pos (hcond.2 h)]
    simp only [Option.map_some, Option.bind_some]
    rw [collect_perm _ _ (harrive _)]
    have := merge_reports c b hb ((List.range k).map S) (by simp [List.range_eq_nil]; omega)
    rw [List.map_map, hflat] at this
    exact this
  · rw [if_neg h, if_neg fun h' => h (hcond.1 h')]
    rfl

/-- **C13.**  A number of processes that is not positive (and not -1) is refused. -/
theorem C13_refused (P : Pvlib τ) (c : EngineCfg) (b : Builder) (a : RunArgs τ) (cpus : ℕ) (n : ℤ)
    (hn : n ≤ 0) (h1 : n ≠ -1) (arrive : List (Report × ℕ) → List (Report × ℕ)) :
    runParallel P c b cpus n arrive a = none := by
  replace hn : workers cpus n ≤ 0 := by rw [workers, if_neg h1]; exact hn
  unfold runParallel foldArgs
  rw [(C14_refused a.timestamps _).2 hn]
  rfl

/-! ## C49: the example report -/

theorem sideWW_congr {α : Type*} (len val val' : α → ℝ) (segs : List (SegColl α))
    (h : ∀ s ∈ segs, ∀ a ∈ s.all, val a = val' a) : sideWW len val segs = sideWW len val' segs := by
  have hc : ∀ l : List α, (∀ a ∈ l, val a = val' a) → collWW len val l = collWW len val' l := by
    intro l hl
    unfold collWW
    exact List.foldl_ext _ _ _ fun x a ha => by rw [hl a ha]
  unfold sideWW
  refine List.foldl_ext _ _ _ fun x s hs => ?_
  unfold segWW
  rw [hc _ fun a ha => h s hs a (List.mem_append_left _ ha),
    hc _ fun a ha => h s hs a (List.mem_append_right _ ha)]

theorem mem_sideColl_all {p : ArrayParams} {i : ℕ} {s : RowSide} {x : SegColl SurfRef}
    {a : SurfRef} (hi : i < p.nRows) (hx : x ∈ sideColl p i s) (ha : a ∈ x.all) :
    a ∈ allRefs p := by
  obtain ⟨k, hk, rfl⟩ := List.mem_map.1 hx
  simp only [SegColl.all, List.cons_append, List.nil_append, List.mem_cons, List.not_mem_nil,
    or_false] at ha
  rcases ha with rfl | rfl <;> exact mem_allRefs_pv.2 ⟨hi, List.mem_range.1 hk⟩

/-- **C49.**  In full mode the example report of an array with at least two rows has one value per
time step and key, in the order of the time steps: the length-weighted mean over the front or back
of row 1 of the incident irradiance (`qinc_front`, `qinc_back`) or of its isotropic part
(`iso_front`, `iso_back`) that full mode computes. -/
theorem C49_example_report (P : Pvlib τ) (c : EngineCfg) (hc : c.fastRow = none) (a : RunArgs τ)
    (l : List IrrIn) (hl : a.inputs P = some l) (hrows : 1 < c.p.nRows)
    (o : Fin l.length → FullOut) (ho : fullResult c (fun t => l.get t) = some o) :
    let mean := fun (s : RowSide) (x : FullOut → SurfRef → ℝ) => List.ofFn fun t =>
      sideWeighted (lengthAt c.p (l.get t).step) (x (o t)) (sideColl c.p 1 s)
    runSerial P c (exampleBuilder c.p) a =
      some [("qinc_front", mean .front FullOut.qinc), ("qinc_back", mean .back FullOut.qinc),
        ("iso_front", mean .front FullOut.isotropic), ("iso_back", mean .back FullOut.isotropic)] := by
  intro mean
  classical
  have hr : runOut c (fun t : Fin l.length => l.get t) = some
      ⟨(fitF c fun t => l.get t).writeFull c.p o, some fun t => (o t).vf,
        some fun t => (o t).vfAoi⟩ := by
    unfold runOut; rw [hc]; dsimp only; rw [ho]; rfl
  have he := afterRun_eq c fun t : Fin l.length => l.get t
  rw [hr] at he
  dsimp only at he
  unfold afterRun at he
  unfold runSerial
  rw [hl]
  dsimp only
  rw [he]
  simp only [if_true]
  set r : RunOut l.length := ⟨(fitF c fun t => l.get t).writeFull c.p o, some fun t => (o t).vf,
        some fun t => (o t).vfAoi⟩ with hrdef
  have dq : ∀ b ∈ allRefs c.p, r.f.dict b .qinc = some fun t => (o t).qinc b := by
    intro b hb
    refine dict_foldl_mem _ _ _ _ _ _ (fun d => ?_) hb
    simp [Params.update, Function.update_of_ne]
  have di : ∀ b ∈ allRefs c.p, r.f.dict b .isotropic = some fun t => (o t).isotropic b := by
    intro b hb
    refine dict_foldl_mem _ _ _ _ _ _ (fun d => ?_) hb
    simp [Params.update, Function.update_of_ne]
  have need : ∀ (key : String) (s : RowSide) (k : PName),
      (∀ b ∈ allRefs c.p, (r.f.dict b k).isSome) →
      ∀ x ∈ (exampleField c.p key s k).needs, r.state.has x.1 x.2 := by
    intro key s k hk x hx
    obtain ⟨y, hy, hx⟩ := List.mem_flatMap.1 hx
    obtain ⟨b, hb, rfl⟩ := List.mem_map.1 hx
    exact hk b (mem_sideColl_all hrows hy hb)
  unfold Builder.build
  rw [if_pos]
  · have hval : ∀ (key : String) (s : RowSide) (k : PName) (x : FullOut → SurfRef → ℝ),
        (∀ b ∈ allRefs c.p, r.f.dict b k = some fun t => x (o t) b) →
        r.state.views.map (exampleField c.p key s k).value = mean s x := by
      intro key s k x hx
      rw [RunOut.views_eq, List.map_ofFn]
      congr 1
      funext t
      simp only [Function.comp_apply, exampleField, RunOut.view, sideWeighted]
      have hu : r.f.u t = (l.get t).step := rfl
      rw [hu]
      congr 1
      refine sideWW_congr _ _ _ _ fun y hy b hb => ?_
      rw [hx b (mem_sideColl_all hrows hy hb)]; rfl
    simp only [exampleBuilder, List.map_cons, List.map_nil]
    rw [hval _ _ _ FullOut.qinc dq, hval _ _ _ FullOut.qinc dq, hval _ _ _ FullOut.isotropic di,
      hval _ _ _ FullOut.isotropic di]
    rfl
  · refine ⟨by simpa [exampleBuilder] using hrows, ?_⟩
    intro f hf
    simp only [exampleBuilder, List.mem_cons, List.not_mem_nil, or_false] at hf
    rcases hf with rfl | rfl | rfl | rfl
    · exact need _ _ _ fun b hb => by rw [dq b hb]; rfl
    · exact need _ _ _ fun b hb => by rw [dq b hb]; rfl
    · exact need _ _ _ fun b hb => by rw [di b hb]; rfl
    · exact need _ _ _ fun b hb => by rw [di b hb]; rfl

/-- **C49.**  The example report of an array with a single row raises an exception. -/
theorem C49_single_row (P : Pvlib τ) (c : EngineCfg) (a : RunArgs τ) (hrows : c.p.nRows ≤ 1) :
    runSerial P c (exampleBuilder c.p) a = none := by
  have h : ∀ st, (exampleBuilder c.p).build st = none := by
    intro st
    unfold Builder.build exampleBuilder
    rw [if_neg]
    simp [hrows]
  unfold runSerial
  cases a.inputs P with
  | none => rfl
  | some l => simp [h]

/-- **C49.**  In fast mode the example report always raises an exception: fast mode computes no
incident irradiance of front surfaces. -/
theorem C49_fast_mode_error (P : Pvlib τ) (c : EngineCfg) (i : ℤ) (hc : c.fastRow = some i)
    (a : RunArgs τ) (hseg : 0 < c.p.nSeg 1 .front) :
    runSerial P c (exampleBuilder c.p) a = none := by
  classical
  unfold runSerial
  cases hl : a.inputs P with
  | none => rfl
  | some l =>
    dsimp only
    have he := afterRun_eq c fun t : Fin l.length => l.get t
    unfold afterRun at he
    cases hr : runOut c (fun t : Fin l.length => l.get t) with
    | none =>
      rw [hr] at he
      dsimp only at he
      rw [he]; simp
    | some r =>
      rw [hr] at he
      dsimp only at he
      rw [he]
      simp only [if_true]
      unfold Builder.build
      rw [if_neg]
      rintro ⟨_, h⟩
      have := h (exampleField c.p "qinc_front" .front .qinc) (by simp [exampleBuilder])
        (.pv 1 .front 0 false, .qinc) (by
          refine List.mem_flatMap.2 ⟨⟨[.pv 1 .front 0 false], [.pv 1 .front 0 true]⟩, ?_, ?_⟩
          · exact List.mem_map.2 ⟨0, List.mem_range.2 hseg, rfl⟩
          · simp [SegColl.all])
      unfold runOut at hr
      rw [hc] at hr
      dsimp only at hr
      split_ifs at hr
      simp only [Option.some.injEq] at hr
      have hd : r.f.dict (.pv 1 .front 0 false) .qinc = none := by
        rw [← hr]
        dsimp only
        rw [Fitted.writeFasts_dict (fitF_fromInputs c _), dict_foldl_not_mem]
        · cases hk : c.kind <;>
            simp [fitF, fitDict, transformParams, hk, Params.update, Function.update_of_ne]
        · intro hmem
          unfold fastTargets at hmem
          cases hsg : c.fastSegment <;> rw [hsg] at hmem <;> simp [sideRefs] at hmem
      have h2 : (r.f.dict (.pv 1 .front 0 false) .qinc).isSome := this
      rw [hd] at h2
      cases h2

/-! ## A concrete case -/

/-- Some external functions which do not accept empty time series. -/
noncomputable def demoPvlib : Pvlib ℕ where
  dniExtra := fun _ => 1300
  airmass := fun _ => 1
  perez := fun r => ⟨r.dhi, r.dhi / 2, r.dhi / 2, 0⟩
  poaGlobal := fun _ _ _ _ dni _ dhi _ => dni + dhi
  emptyOk := false

/-- Five time steps with different irradiance. -/
noncomputable def demoArgs : RunArgs ℕ where
  timestamps := [0, 1, 2, 3, 4]
  dni := [500, 600, 700, 800, 900]
  dhi := [100, 110, 120, 130, 140]
  solarZenith := List.replicate 5 45
  solarAzimuth := List.replicate 5 270
  surfaceTilt := List.replicate 5 90
  surfaceAzimuth := List.replicate 5 270
  albedo := .inl (1 / 5)
  ghi := none

/-- Two vertical rows, hybrid Perez model, full mode. -/
noncomputable def vertCfg : EngineCfg where
  p := vertArray
  kind := .hybridPerez
  q := demoIrrParams
  aoi := none
  fastRow := none
  fastSegment := none

theorem demoArgs_aligned : demoArgs.Aligned := by
  simp [RunArgs.Aligned, demoArgs, RunArgs.albedoList]

theorem demoArgs_step (i : ℕ) (hi : i < 5) : (inputAt demoPvlib demoArgs i).step = vertStep ∧
    (inputAt demoPvlib demoArgs i).albedo = 1 / 5 := by
  have h : ∀ x : ℝ, (List.replicate 5 x).getD i 0 = x := by
    intro x; rw [List.getD_eq_getElem _ _ (by simpa using hi)]; exact List.getElem_replicate _
  refine ⟨?_, ?_⟩
  · simp only [IrrIn.step, inputAt, demoArgs, h, vertStep]
  · exact h (1 / 5)

/-- C13 and C49 in a concrete case: five time steps, three processes which deliver their results in
reverse order.  Both runs return the same report, with five values under each key. -/
theorem C13_demo : ∃ r : Report, runSerial demoPvlib vertCfg (exampleBuilder vertArray) demoArgs = some r ∧
    runParallel demoPvlib vertCfg (exampleBuilder vertArray) 4 3 List.reverse demoArgs = some r ∧
    r.map Prod.fst = ["qinc_front", "qinc_back", "iso_front", "iso_back"] ∧
    ∀ e ∈ r, e.2.length = 5 := by
  classical
  have hin : demoArgs.inputs demoPvlib = some ((List.range 5).map (inputAt demoPvlib demoArgs)) := by
    rw [inputs_eq _ _ demoArgs_aligned, if_pos (Or.inl (by simp [demoArgs]))]; rfl
  set l := (List.range 5).map (inputAt demoPvlib demoArgs) with hl
  have hmem : ∀ t : Fin l.length, (l.get t).step = vertStep ∧ (l.get t).albedo = 1 / 5 := by
    intro t
    obtain ⟨i, hi, he⟩ := List.mem_map.1 (l.get_mem t)
    rw [← he]
    exact demoArgs_step i (List.mem_range.1 hi)
  obtain ⟨o, ho⟩ := C07_hybrid vertArray (fun t => (l.get t).step) demoIrrParams
    (fun t => l.get t) (aoiOf none vertArray fun t => (l.get t).step)
    (fun t => ⟨demo_losses.front, demo_losses.back, by rw [(hmem t).2]; norm_num⟩)
    vert_physicalArray (fun t => by rw [(hmem t).1]; exact vert_physicalStep)
  have hser := C49_example_report demoPvlib vertCfg rfl demoArgs l hin
    (by norm_num [vertCfg, vertArray]) o ho
  refine ⟨_, hser, ?_, rfl, ?_⟩
  · rw [← hser]
    refine C13_parallel_eq_serial _ _ _ (by decide) _ demoArgs_aligned _ _ (by decide)
      (Or.inr (by simp [demoArgs])) _ (fun l => l.reverse_perm) ?_
    intro _ i hi
    have := (demoArgs_step i hi).1
    have e : (⟨demoArgs.solarZenith.getD i 0, demoArgs.solarAzimuth.getD i 0,
        demoArgs.surfaceTilt.getD i 0, demoArgs.surfaceAzimuth.getD i 0⟩ : StepIn) = vertStep := this
    rw [e]
    exact fun a ha => (vert_lengths a ha).imp_right le_of_lt
  · intro e he
    simp only [List.mem_cons, List.not_mem_nil, or_false] at he
    rcases he with rfl | rfl | rfl | rfl <;> simp [hl]

end PVF
