import Verif.Props.FastFull
import Verif.Props.Brighter
import Verif.Spec.Through

/-!
# C90: light that passes the rows
-/

namespace PVF

variable {ι : Type} [Fintype ι]

theorem throughModules_eq (q : IrrParams) (x : ℝ) : throughModules q x = openShare q * x := by
  unfold throughModules openShare; ring

theorem SameModules.direct {q q' : IrrParams} (v : IrrIn) (a : SurfRef) :
    (directCats q' v).get a = (if a.isShaded then openShare q' else 1)
      * (directCats { q with moduleTransparency := 1 } v).get a := by
  have e : openShare { q with moduleTransparency := 1 } = 1 := by unfold openShare; ring
  match a with
  | .gnd false _ _ => simp [Cats.get, SurfRef.isShaded, directCats]
  | .pv _ .front _ false => simp [Cats.get, SurfRef.isShaded, directCats]
  | .pv _ .back _ false => simp [Cats.get, SurfRef.isShaded, directCats]
  | .gnd true _ _ => simp [Cats.get, SurfRef.isShaded, directCats, throughModules_eq, e]
  | .pv _ .front _ true => simp [Cats.get, SurfRef.isShaded, directCats, throughModules_eq, e]
  | .pv _ .back _ true => simp [Cats.get, SurfRef.isShaded, directCats, throughModules_eq, e]

theorem SameModules.circumsolar {q q' : IrrParams} (v : IrrIn) (a : SurfRef) :
    (circumsolarCats q' v).get a = (if a.isShaded then openShare q' else 1)
      * (circumsolarCats { q with moduleTransparency := 1 } v).get a := by
  have e : openShare { q with moduleTransparency := 1 } = 1 := by unfold openShare; ring
  match a with
  | .gnd false _ _ => simp [Cats.get, SurfRef.isShaded, circumsolarCats]
  | .pv _ .front _ false => simp [Cats.get, SurfRef.isShaded, circumsolarCats]
  | .pv _ .back _ false => simp [Cats.get, SurfRef.isShaded, circumsolarCats]
  | .gnd true _ _ => simp [Cats.get, SurfRef.isShaded, circumsolarCats, throughModules_eq, e]
  | .pv _ .front _ true => simp [Cats.get, SurfRef.isShaded, circumsolarCats, throughModules_eq, e]
  | .pv _ .back _ true => simp [Cats.get, SurfRef.isShaded, circumsolarCats, throughModules_eq, e]

theorem SameModules.rhoOf {q q' : IrrParams} (h : SameModules q q') (v : IrrIn) :
    rhoOf q' v = rhoOf q v := by
  rw [h]; funext a
  match a with
  | .gnd _ _ _ => rfl
  | .pv _ .front _ _ => rfl
  | .pv _ .back _ _ => rfl

theorem SameModules.faoiDirectOf {q q' : IrrParams} (h : SameModules q q') (v : IrrIn) :
    faoiDirectOf q' v = faoiDirectOf q v := by
  rw [h]; funext a
  match a with
  | .gnd _ _ _ => rfl
  | .pv _ .front _ _ => rfl
  | .pv _ .back _ _ => rfl

theorem SameModules.horizonOf {q q' : IrrParams} (h : SameModules q q') (p : ArrayParams)
    (g : StepGeom) (v : IrrIn) : horizonOf q' p g v = horizonOf q p g v := by
  rw [h]; funext a
  match a with
  | .gnd _ _ _ => rfl
  | .pv _ .front _ _ => rfl
  | .pv _ .back _ _ => rfl

theorem SameModules.horizonAbsOf {q q' : IrrParams} (h : SameModules q q') (p : ArrayParams)
    (g : StepGeom) (v : IrrIn) : horizonAbsOf q' p g v = horizonAbsOf q p g v := by
  rw [h]; funext a
  match a with
  | .gnd _ _ _ => rfl
  | .pv _ .front _ _ => rfl
  | .pv _ .back _ _ => rfl

theorem SameModules.losses {q q' : IrrParams} (h : SameModules q q') {v : IrrIn}
    (hl : LossesOk q v) : LossesOk q' v := by
  rw [h]; exact ⟨hl.front, hl.back, hl.albedo⟩

/-! ## What surfaces get from the sky -/

/-- C90: light from the sun and its surroundings on a shaded surface is the open share of that on an
illuminated surface of the same kind (same side of the same row and segment, or ground). -/
theorem C90_shaded (q : IrrParams) (p : ArrayParams) (g : StepGeom) (v : IrrIn) (a b : SurfRef)
    (ha : a.isShaded = true) (hb : b.isShaded = false) (hk : a.kind = b.kind) :
    (∃ x, (isotropicStep q v).comp b = [x] ∧ (isotropicStep q v).comp a = [openShare q * x]) ∧
    ∃ x y z z', (hybridPerezStep q p g v).comp b = [x, y, z] ∧
      (hybridPerezStep q p g v).comp a = [openShare q * x, openShare q * y, z'] := by
  have h1 : (directCats q v).get a = openShare q * (directCats q v).get b := by
    match a, b, ha, hb, hk with
    | .gnd true _ _, .gnd false _ _, _, _, _ => exact throughModules_eq _ _
    | .pv _ .front _ true, .pv _ .front _ false, _, _, _ => exact throughModules_eq _ _
    | .pv _ .back _ true, .pv _ .back _ false, _, _, _ => exact throughModules_eq _ _
  have h2 : (circumsolarCats q v).get a = openShare q * (circumsolarCats q v).get b := by
    match a, b, ha, hb, hk with
    | .gnd true _ _, .gnd false _ _, _, _, _ => exact throughModules_eq _ _
    | .pv _ .front _ true, .pv _ .front _ false, _, _, _ => exact throughModules_eq _ _
    | .pv _ .back _ true, .pv _ .back _ false, _, _, _ => exact throughModules_eq _ _
  exact ⟨⟨_, rfl, by rw [← h1]; rfl⟩, _, _, _, _, rfl, by rw [← h1, ← h2]; rfl⟩

/-! ## Results -/

/-- C90: spacing and transparency matter only through the open share, in both modes and models. -/
theorem C90_share (p : ArrayParams) (u : ι → StepIn) (q q' : IrrParams) (hq : SameModules q q')
    (he : openShare q = openShare q') (v : ι → IrrIn) (aoi : ι → Option (List Asg)) :
    runFullMode p u (fun t => isotropicStep q (v t)) aoi
        = runFullMode p u (fun t => isotropicStep q' (v t)) aoi ∧
    runFullMode p u (fun t => hybridPerezStep q p (fitStep p (u t)) (v t)) aoi
        = runFullMode p u (fun t => hybridPerezStep q' p (fitStep p (u t)) (v t)) aoi ∧
    ∀ g i seg a t, runFastMode p g (isotropicStep q (v t)) i seg a
          = runFastMode p g (isotropicStep q' (v t)) i seg a ∧
      runFastMode p g (hybridPerezStep q p g (v t)) i seg a
          = runFastMode p g (hybridPerezStep q' p g (v t)) i seg a := by
  have ht : throughModules q' = throughModules q := by
    funext x; rw [throughModules_eq, throughModules_eq, he]
  have hd : ∀ w, directCats q' w = directCats q w := fun w => by unfold directCats; rw [ht]
  have hc : ∀ w, circumsolarCats q' w = circumsolarCats q w := fun w => by
    unfold circumsolarCats; rw [ht]
  have hr : q'.rhoFront = q.rhoFront := by rw [hq]
  have hi : ∀ w, isotropicStep q' w = isotropicStep q w := fun w => by
    unfold isotropicStep; rw [hd, hq.rhoOf, hq.faoiDirectOf, hr]
  have hh : ∀ g w, hybridPerezStep q' p g w = hybridPerezStep q p g w := fun g w => by
    unfold hybridPerezStep
    rw [hd, hc, hq.rhoOf, hq.faoiDirectOf, hq.horizonOf, hq.horizonAbsOf, hr]
  simp only [hi, hh]
  exact ⟨trivial, trivial, fun _ _ _ _ _ => ⟨trivial, trivial⟩⟩

/-- Results of full mode are combined with the weights `1 - x` and `x`. -/
def MixedFull (p : ArrayParams) (x : ℝ) (o o' o'' : FullOut) : Prop :=
  ∀ a ∈ surfaces p,
    o''.q0 a = (1 - x) * o.q0 a + x * o'.q0 a ∧ o''.qinc a = (1 - x) * o.qinc a + x * o'.qinc a ∧
    o''.isotropic a = (1 - x) * o.isotropic a + x * o'.isotropic a ∧
    o''.reflection a = (1 - x) * o.reflection a + x * o'.reflection a ∧
    o''.qabs a = (1 - x) * o.qabs a + x * o'.qabs a

theorem mix_shaded {e e' e'' x y : ℝ} (h : e'' = (1 - x) * e + x * e') (b : Bool) :
    (if b then e'' else 1) * y
      = (1 - x) * ((if b then e else 1) * y) + x * ((if b then e' else 1) * y) := by
  cases b
  · simp only [Bool.false_eq_true, if_false]; ring
  · simp only [if_true, h]; ring

/-- C90: all results of full mode are linear in the open share (isotropic model, with and without fAOI
functions): with a share between those of two runs they lie in the same proportion between the
results of these runs. -/
theorem C90_mix (p : ArrayParams) (u : ι → StepIn) (q q' q'' : IrrParams) (hq' : SameModules q q')
    (hq'' : SameModules q q'') (x : ℝ)
    (he : openShare q'' = (1 - x) * openShare q + x * openShare q') (v : ι → IrrIn)
    (aoi : ι → Option (List Asg)) (o o' : ι → FullOut)
    (h : runFullMode p u (fun t => isotropicStep q (v t)) aoi = some o)
    (h' : runFullMode p u (fun t => isotropicStep q' (v t)) aoi = some o') :
    ∃ o'', runFullMode p u (fun t => isotropicStep q'' (v t)) aoi = some o'' ∧
      ∀ t, MixedFull p x (o t) (o' t) (o'' t) := by
  refine C12_linear p u _ _ _ aoi o o' (1 - x) x h h' ?_ ?_ ?_ ?_ ?_
  · intro t a _; simp [isotropicStep, hq'.rhoOf]
  · intro t a _; simp [isotropicStep, hq''.rhoOf]
  · intro t a _
    simp only [isotropicStep, List.sum_cons, List.sum_nil, add_zero]
    rw [SameModules.direct (q := q) (q' := q''), SameModules.direct (q := q) (q' := q'),
      SameModules.direct (q := q) (q' := q)]
    exact mix_shaded he _
  · intro t a _
    simp only [isotropicStep, List.sum_cons, List.sum_nil, add_zero, hq'.faoiDirectOf,
      hq''.faoiDirectOf]
    rw [SameModules.direct (q := q) (q' := q''), SameModules.direct (q := q) (q' := q'),
      SameModules.direct (q := q) (q' := q), mix_shaded he]
    ring
  · intro t; simp only [isotropicStep]; ring

/-- C90 with the hybrid Perez model. -/
theorem C90_mix_hybrid (p : ArrayParams) (u : ι → StepIn) (q q' q'' : IrrParams)
    (hq' : SameModules q q') (hq'' : SameModules q q'') (x : ℝ)
    (he : openShare q'' = (1 - x) * openShare q + x * openShare q') (v : ι → IrrIn)
    (aoi : ι → Option (List Asg)) (o o' : ι → FullOut)
    (h : runFullMode p u (fun t => hybridPerezStep q p (fitStep p (u t)) (v t)) aoi = some o)
    (h' : runFullMode p u (fun t => hybridPerezStep q' p (fitStep p (u t)) (v t)) aoi = some o') :
    ∃ o'', runFullMode p u (fun t => hybridPerezStep q'' p (fitStep p (u t)) (v t)) aoi
        = some o'' ∧ ∀ t, MixedFull p x (o t) (o' t) (o'' t) := by
  refine C12_linear p u _ _ _ aoi o o' (1 - x) x h h' ?_ ?_ ?_ ?_ ?_
  · intro t a _; simp [hybridPerezStep, hq'.rhoOf]
  · intro t a _; simp [hybridPerezStep, hq''.rhoOf]
  · intro t a _
    simp only [hybridPerezStep, List.sum_cons, List.sum_nil, add_zero, hq'.horizonOf,
      hq''.horizonOf]
    rw [SameModules.direct (q := q) (q' := q''), SameModules.direct (q := q) (q' := q'),
      SameModules.direct (q := q) (q' := q), SameModules.circumsolar (q := q) (q' := q''),
      SameModules.circumsolar (q := q) (q' := q'), SameModules.circumsolar (q := q) (q' := q),
      mix_shaded he, mix_shaded he]
    ring
  · intro t a _
    simp only [hybridPerezStep, List.sum_cons, List.sum_nil, add_zero, hq'.horizonAbsOf,
      hq''.horizonAbsOf, hq'.faoiDirectOf, hq''.faoiDirectOf]
    rw [SameModules.direct (q := q) (q' := q''), SameModules.direct (q := q) (q' := q'),
      SameModules.direct (q := q) (q' := q), SameModules.circumsolar (q := q) (q' := q''),
      SameModules.circumsolar (q := q) (q' := q'), SameModules.circumsolar (q := q) (q' := q),
      mix_shaded he, mix_shaded he]
    ring
  · intro t; simp only [hybridPerezStep]; ring

theorem more_shaded {e e' y : ℝ} (h : e ≤ e') (hy : 0 ≤ y) (b : Bool) :
    (if b then e else 1) * y ≤ (if b then e' else 1) * y := by
  cases b
  · exact le_rfl
  · exact mul_le_mul_of_nonneg_right h hy

/-- Light on illuminated surfaces is not negative. -/
theorem direct_open_nonneg {q : IrrParams} {v : IrrIn} (h : LightOk q v) (a : SurfRef) :
    0 ≤ (directCats { q with moduleTransparency := 1 } v).get a :=
  directCats_nonneg (q := { q with moduleTransparency := 1 })
    ⟨h.dni, h.dhi, h.sunUp, h.spacing, zero_le_one⟩ a

theorem circumsolar_open_nonneg {q : IrrParams} {v : IrrIn} (h : LightOk q v) (hP : PerezOk q v)
    (a : SurfRef) : 0 ≤ (circumsolarCats { q with moduleTransparency := 1 } v).get a :=
  circumsolarCats_nonneg (q := { q with moduleTransparency := 1 })
    ⟨h.dni, h.dhi, h.sunUp, h.spacing, zero_le_one⟩
    ⟨hP.isotropic, hP.circumsolar, hP.poa, hP.band⟩ a

/-- C90: wider gaps and more transparent modules never darken anything (isotropic model). -/
theorem C90_more (p : ArrayParams) (u : ι → StepIn) (q q' : IrrParams) (hq : SameModules q q')
    (he : openShare q ≤ openShare q') (v : ι → IrrIn)
    (aoi aoi' : ι → Option (List Asg)) (o o' : ι → FullOut)
    (h : runFullMode p u (fun t => isotropicStep q (v t)) aoi = some o)
    (h' : runFullMode p u (fun t => isotropicStep q' (v t)) aoi' = some o')
    (hl : ∀ t, LossesOk q (v t)) (hp : PhysicalArray p) (t : ι) (hu : PhysicalStep p (u t))
    (hv : LightOk q (v t)) :
    ∀ a ∈ surfaces p, (o t).q0 a ≤ (o' t).q0 a ∧ (o t).qinc a ≤ (o' t).qinc a ∧
      (o t).isotropic a = (o' t).isotropic a ∧ (o t).reflection a ≤ (o' t).reflection a := by
  intro a ha
  obtain ⟨h1, h2, h3, h4⟩ := C12_physical_monotone p u _ _ aoi aoi' o o' h h'
    (fun t => (hl t).inverse_isotropic p) (fun t => (hl t).reflectivities_isotropic p)
    (fun t a _ => by simp [isotropicStep, hq.rhoOf]) hp t hu
    (fun a _ => by
      simp only [isotropicStep, List.sum_cons, List.sum_nil, add_zero]
      rw [SameModules.direct (q := q) (q' := q'), SameModules.direct (q := q) (q' := q)]
      exact more_shaded he (direct_open_nonneg hv a) _) le_rfl a ha
  refine ⟨h1, h2, ?_, h4⟩
  rw [(C09_components p u _ aoi o h (fun t => (hl t).inverse_isotropic p) t a ha).2.1,
    (C09_components p u _ aoi' o' h' (fun t => (hq.losses (hl t)).inverse_isotropic p) t a ha).2.1]
  rfl

/-- C90 with the hybrid Perez model. -/
theorem C90_more_hybrid (p : ArrayParams) (u : ι → StepIn) (q q' : IrrParams) (hq : SameModules q q')
    (he : openShare q ≤ openShare q') (v : ι → IrrIn)
    (aoi aoi' : ι → Option (List Asg)) (o o' : ι → FullOut)
    (h : runFullMode p u (fun t => hybridPerezStep q p (fitStep p (u t)) (v t)) aoi = some o)
    (h' : runFullMode p u (fun t => hybridPerezStep q' p (fitStep p (u t)) (v t)) aoi' = some o')
    (hl : ∀ t, LossesOk q (v t)) (hp : PhysicalArray p) (t : ι) (hu : PhysicalStep p (u t))
    (hv : LightOk q (v t)) (hP : PerezOk q (v t)) :
    ∀ a ∈ surfaces p, (o t).q0 a ≤ (o' t).q0 a ∧ (o t).qinc a ≤ (o' t).qinc a ∧
      (o t).isotropic a = (o' t).isotropic a ∧ (o t).reflection a ≤ (o' t).reflection a := by
  intro a ha
  obtain ⟨h1, h2, h3, h4⟩ := C12_physical_monotone p u _ _ aoi aoi' o o' h h'
    (fun t => (hl t).inverse_hybrid p _) (fun t => (hl t).reflectivities_hybrid p _)
    (fun t a _ => by simp [hybridPerezStep, hq.rhoOf]) hp t hu
    (fun a _ => by
      simp only [hybridPerezStep, List.sum_cons, List.sum_nil, add_zero, hq.horizonOf]
      rw [SameModules.direct (q := q) (q' := q'), SameModules.direct (q := q) (q' := q),
        SameModules.circumsolar (q := q) (q' := q'), SameModules.circumsolar (q := q) (q' := q)]
      have e1 := more_shaded he (direct_open_nonneg hv a) a.isShaded
      have e2 := more_shaded he (circumsolar_open_nonneg hv hP a) a.isShaded
      linarith) le_rfl a ha
  refine ⟨h1, h2, ?_, h4⟩
  rw [(C09_components p u _ aoi o h (fun t => (hl t).inverse_hybrid p _) t a ha).2.1,
    (C09_components p u _ aoi' o' h' (fun t => (hq.losses (hl t)).inverse_hybrid p _) t a ha).2.1]
  rfl

/-- C90 in fast mode. -/
theorem C90_more_fast (p : ArrayParams) (u : StepIn) (hp : PhysicalArray p) (hu : PhysicalStep p u)
    (q q' : IrrParams) (hq : SameModules q q') (he : openShare q ≤ openShare q') (v : IrrIn)
    (hl : LossesOk q v) (hv : LightOk q v) (r : ℕ) (seg : Option ℤ) (k : ℕ) (sh : Bool)
    (ha : SurfRef.pv r .back k sh ∈ surfaces p) (f f' : FastOut) :
    (runFastMode p (fitStep p u) (isotropicStep q v) r seg (.pv r .back k sh) = some f →
      runFastMode p (fitStep p u) (isotropicStep q' v) r seg (.pv r .back k sh) = some f' →
      f.qinc ≤ f'.qinc) ∧
    (PerezOk q v →
      runFastMode p (fitStep p u) (hybridPerezStep q p (fitStep p u) v) r seg (.pv r .back k sh)
        = some f →
      runFastMode p (fitStep p u) (hybridPerezStep q' p (fitStep p u) v) r seg (.pv r .back k sh)
        = some f' → f.qinc ≤ f'.qinc) := by
  have hr := C28_range p u hp hu r k sh ha
  simp only [List.mem_cons, forall_eq_or_imp] at hr
  have hs := hr.1.1
  have hps := hr.2.2.2.1.1
  have ha0 := hl.albedo.1.le
  have hf0 := hl.front.1.le
  have hr' : q'.rhoFront = q.rhoFront := by rw [hq]
  have d := fun a => more_shaded he (direct_open_nonneg hv a) a.isShaded
  have hd : ∀ a, (directCats q v).get a ≤ (directCats q' v).get a := fun a => by
    rw [SameModules.direct (q := q) (q' := q'), SameModules.direct (q := q) (q' := q)]; exact d a
  have hg : (directCats q v).groundShaded ≤ (directCats q' v).groundShaded := hd (.gnd true 0 0)
  have hd1 := hd (.pv r .back k sh)
  constructor
  · intro h1 h2
    rw [runFastMode_eq] at h1 h2
    split_ifs at h1 h2 with hm
    injection h1 with h1
    injection h2 with h2
    rw [← h1, ← h2]
    simp only [fastSurface, isotropicStep, sumComponents, List.foldl_cons, List.foldl_nil, hr',
      zero_add]
    have e1 := mul_le_mul_of_nonneg_left (add_le_add_right hg v.dhi) (mul_nonneg hs ha0)
    have e2 : (directCats q' v).frontIllum = (directCats q v).frontIllum := rfl
    rw [e2]
    linarith
  · intro hP h1 h2
    have hc : ∀ a, (circumsolarCats q v).get a ≤ (circumsolarCats q' v).get a := fun a => by
      rw [SameModules.circumsolar (q := q) (q' := q'), SameModules.circumsolar (q := q) (q' := q)]
      exact more_shaded he (circumsolar_open_nonneg hv hP a) a.isShaded
    have hcg : (circumsolarCats q v).groundShaded ≤ (circumsolarCats q' v).groundShaded :=
      hc (.gnd true 0 0)
    have hdf : (directCats q v).frontShaded ≤ (directCats q' v).frontShaded :=
      hd (.pv 0 .front 0 true)
    have hcf : (circumsolarCats q v).frontShaded ≤ (circumsolarCats q' v).frontShaded :=
      hc (.pv 0 .front 0 true)
    have hc1 := hc (.pv r .back k sh)
    rw [runFastMode_eq] at h1 h2
    split_ifs at h1 h2 with hm
    injection h1 with h1
    injection h2 with h2
    rw [← h1, ← h2]
    simp only [fastSurface, hybridPerezStep, sumComponents, List.foldl_cons, List.foldl_nil, hr',
      zero_add, hq.horizonOf]
    have e2 : (directCats q' v).frontIllum = (directCats q v).frontIllum := rfl
    have e3 : (circumsolarCats q' v).frontIllum = (circumsolarCats q v).frontIllum := rfl
    have e4 : (circumsolarCats q' v).groundIllum = (circumsolarCats q v).groundIllum := rfl
    rw [e2, e3, e4]
    have e1 := mul_le_mul_of_nonneg_left
      (show v.dhi - (circumsolarCats q v).groundIllum + (circumsolarCats q v).groundShaded
          + (directCats q v).groundShaded
        ≤ v.dhi - (circumsolarCats q v).groundIllum + (circumsolarCats q' v).groundShaded
          + (directCats q' v).groundShaded by linarith) (mul_nonneg hs ha0)
    have e5 := mul_le_mul_of_nonneg_left
      (show v.poaGlobal - (directCats q v).frontIllum - (circumsolarCats q v).frontIllum
          + (directCats q v).frontShaded + (circumsolarCats q v).frontShaded
        ≤ v.poaGlobal - (directCats q v).frontIllum - (circumsolarCats q v).frontIllum
          + (directCats q' v).frontShaded + (circumsolarCats q' v).frontShaded by linarith)
      (mul_nonneg hps hf0)
    linarith

/-! ## A concrete case -/

/-- Like `demoIrrParams`, but the modules let half of the light through. -/
noncomputable def glassIrrParams : IrrParams :=
  { demoIrrParams with moduleTransparency := 1 / 2 }

/-- Like `demoIrrParams`, but with opaque modules and wider gaps. -/
noncomputable def gapIrrParams : IrrParams :=
  { demoIrrParams with moduleTransparency := 0, moduleSpacingRatio := 7 / 25 }

/-- C90 in a concrete case: with gaps of a fifth and a transparency of one tenth the open share is
28 %, with a transparency of a half 60 %.  Full mode succeeds for both, nothing gets darker, the shaded
part of a front gets 280 and 600 of the 1000 W/m2 of direct light.  Opaque modules with gaps of 28 %
give the same results as the first ones. -/
theorem C90_demo :
    openShare demoIrrParams = 7 / 25 ∧ openShare glassIrrParams = 3 / 5 ∧
    ∃ o o' : Fin 3 → FullOut,
      runFullMode denseArray (fun _ => shadeStep)
        (fun _ => isotropicStep demoIrrParams demoIrrIn) (fun _ => none) = some o ∧
      runFullMode denseArray (fun _ => shadeStep)
        (fun _ => isotropicStep gapIrrParams demoIrrIn) (fun _ => none) = some o ∧
      runFullMode denseArray (fun _ => shadeStep)
        (fun _ => isotropicStep glassIrrParams demoIrrIn) (fun _ => none) = some o' ∧
      (isotropicStep demoIrrParams demoIrrIn).comp (.pv 0 .front 0 true) = [280] ∧
      (isotropicStep glassIrrParams demoIrrIn).comp (.pv 0 .front 0 true) = [600] ∧
      ∀ t, ∀ a ∈ surfaces denseArray, (o t).qinc a ≤ (o' t).qinc a := by
  have s1 : openShare demoIrrParams = 7 / 25 := by norm_num [openShare, demoIrrParams]
  have s2 : openShare glassIrrParams = 3 / 5 := by
    norm_num [openShare, glassIrrParams, demoIrrParams]
  have s3 : openShare gapIrrParams = 7 / 25 := by norm_num [openShare, gapIrrParams]
  have hq : SameModules demoIrrParams glassIrrParams := rfl
  have hq3 : SameModules demoIrrParams gapIrrParams := rfl
  obtain ⟨o, ho⟩ := C07_isotropic denseArray (fun _ : Fin 3 => shadeStep) demoIrrParams
    (fun _ => demoIrrIn) (fun _ => none) (fun _ => demo_losses) dense_physicalArray
    (fun _ => shade_physicalStep)
  obtain ⟨o', ho'⟩ := C07_isotropic denseArray (fun _ : Fin 3 => shadeStep) glassIrrParams
    (fun _ => demoIrrIn) (fun _ => none) (fun _ => hq.losses demo_losses) dense_physicalArray
    (fun _ => shade_physicalStep)
  have hf : (directCats demoIrrParams demoIrrIn).frontIllum = 1000 := by
    rw [direct_front, demo_cosIncidence]; norm_num [demoIrrIn]
  refine ⟨s1, s2, o, o', ho, ?_, ho', ?_, ?_, fun t a ha => ?_⟩
  · rw [← (C90_share _ _ _ _ hq3 (by rw [s1, s3]) _ _).1]; exact ho
  · change [throughModules demoIrrParams (directCats demoIrrParams demoIrrIn).frontIllum] = _
    rw [throughModules_eq, s1, hf]; norm_num
  · change [throughModules glassIrrParams (directCats demoIrrParams demoIrrIn).frontIllum] = _
    rw [throughModules_eq, s2, hf]; norm_num
  · exact (C90_more _ _ _ _ hq (by rw [s1, s2]; norm_num) _ _ _ o o' ho ho'
      (fun _ => demo_losses) dense_physicalArray t shade_physicalStep demo_light a ha).2.1

end PVF
