import Verif.Model.State
import Verif.Spec.FastIndex
import Verif.Props.FastFull
import Verif.Props.Time
import Verif.Props.EndToEnd

/-!
# C38: results do not depend on the history of the engine
-/

namespace PVF

/-- What the irradiance model provides at a time step (independent of any engine). -/
noncomputable def irrStepOf (c : EngineCfg) (v : IrrIn) : IrrStep :=
  match c.kind with
  | .isotropic => isotropicStep c.q v
  | .hybridPerez => hybridPerezStep c.q c.p (fitStep c.p v.step) v

/-- The stateless full mode: a function of the inputs. -/
noncomputable def fullResult (c : EngineCfg) {n : ℕ} (v : Fin n → IrrIn) : Option (Fin n → FullOut) :=
  runFullMode c.p (fun t => (v t).step) (fun t => irrStepOf c (v t))
    (aoiOf c.aoi c.p fun t => (v t).step)

/-- The stateless fast mode for one surface: a function of the inputs. -/
noncomputable def fastResult (c : EngineCfg) {n : ℕ} (v : Fin n → IrrIn) (i : ℤ)
    (segment : Option ℤ) (t : Fin n) : SurfRef → Option FastOut :=
  runFastMode c.p (fitStep c.p (v t).step) (irrStepOf c (v t)) i segment

theorem Params.update_not_mem {n : ℕ} (d : Params n) (new : List (PName × (Fin n → ℝ)))
    (k : PName) (h : k ∉ new.map Prod.fst) : d.update new k = d k := by
  unfold Params.update
  induction new generalizing d with
  | nil => rfl
  | cons x l ih =>
    simp only [List.map_cons, List.mem_cons, not_or] at h
    rw [List.foldl_cons, ih _ h.2, Function.update_of_ne h.1]

/-- Keys written by the run modes. -/
def PName.isOut : PName → Bool
  | .q0 | .qinc | .isotropic | .reflection | .qabs
  | .skyTerm | .reflectionGndShaded | .reflectionGndIllum | .reflectionPvrowShaded
  | .reflectionPvrowIllum => true
  | _ => false

/-- Everything that `fit` has set and that the run modes leave alone. -/
structure Fitted.FromInputs {n : ℕ} (f : Fitted n) (c : EngineCfg) (v : Fin n → IrrIn) : Prop where
  u : f.u = fun t => (v t).step
  attrs : f.attrs = fun t => irrAttrs c.kind c.q (v t)
  dict : ∀ a k, k.isOut = false → f.dict a k = fitDict c v a k

theorem Fitted.FromInputs.param {n : ℕ} {f : Fitted n} {c : EngineCfg} {v : Fin n → IrrIn}
    (h : f.FromInputs c v) (a : SurfRef) (k : PName) (hk : k.isOut = false) (t : Fin n) :
    f.param a k t = ((fitDict c v a k).map fun x => x t).getD 0 := by
  rw [Fitted.param, h.dict a k hk]

/-- The run modes read from the objects what the irradiance model computed from the inputs. -/
theorem Fitted.FromInputs.read {n : ℕ} {f : Fitted n} {c : EngineCfg} {v : Fin n → IrrIn}
    (h : f.FromInputs c v) (t : Fin n) : f.read c.kind t = irrStepOf c (v t) := by
  have hp := fun a k hk => h.param a k hk t
  unfold Fitted.read irrStepOf
  cases hk : c.kind with
  | isotropic =>
    simp only [isotropicStep, IrrKind.comp, IrrKind.compAbsorbed, List.map_cons, List.map_nil,
      h.attrs, irrAttrs, hk, hp _ .direct rfl, hp _ .directAbsorbed rfl, hp _ .rho rfl,
      hp _ .invRho rfl, hp _ .totalPerez rfl, fitDict, transformParams]
    simp only [Params.update, List.foldl_cons, List.foldl_nil, Function.update_self,
      Function.update_of_ne, ne_eq, reduceCtorEq, not_false_eq_true, Option.map_some,
      Option.getD_some]
    congr 1
  | hybridPerez =>
    have e : ∀ a k, k ≠ PName.horizonUnshaded → k ≠ PName.horizonShdPct →
        fitDict c v a k = Params.update (fun _ => none)
      [(.direct, fun t => (directCats c.q (v t)).get a),
       (.circumsolar, fun t => (circumsolarCats c.q (v t)).get a),
       (.horizon, fun t => horizonOf c.q c.p (fitStep c.p (v t).step) (v t) a),
       (.rho, fun t => rhoOf c.q (v t) a), (.invRho, fun t => 1 / rhoOf c.q (v t) a),
       (.totalPerez, fun t => totalPerezOf (irrAttrs .hybridPerez c.q (v t)) a),
       (.directAbsorbed, fun t => faoiDirectOf c.q (v t) a * (directCats c.q (v t)).get a),
       (.circumsolarAbsorbed,
        fun t => faoiDirectOf c.q (v t) a * (circumsolarCats c.q (v t)).get a),
       (.horizonAbsorbed, fun t => horizonAbsOf c.q c.p (fitStep c.p (v t).step) (v t) a)] k := by
      intro a k k1 k2
      simp only [fitDict, transformParams, hk]
      rw [Params.update, List.foldl_append, ← Params.update, ← Params.update,
        Params.update_not_mem]
      rcases a with ⟨_ | _, _, _⟩ | ⟨_, _ | _, _, _ | _⟩ <;> simp [k1, k2]
    simp only [hybridPerezStep, IrrKind.comp, IrrKind.compAbsorbed, List.map_cons, List.map_nil,
      h.attrs, irrAttrs, hk, hp _ .direct rfl, hp _ .directAbsorbed rfl, hp _ .rho rfl,
      hp _ .invRho rfl, hp _ .totalPerez rfl, hp _ .circumsolar rfl,
      hp _ .circumsolarAbsorbed rfl, hp _ .horizon rfl, hp _ .horizonAbsorbed rfl,
      e _ .direct (by simp) (by simp), e _ .directAbsorbed (by simp) (by simp),
      e _ .rho (by simp) (by simp), e _ .invRho (by simp) (by simp),
      e _ .totalPerez (by simp) (by simp), e _ .circumsolar (by simp) (by simp),
      e _ .circumsolarAbsorbed (by simp) (by simp), e _ .horizon (by simp) (by simp),
      e _ .horizonAbsorbed (by simp) (by simp)]
    simp only [Params.update, List.foldl_cons, List.foldl_nil, Function.update_self,
      Function.update_of_ne, ne_eq, reduceCtorEq, not_false_eq_true, Option.map_some,
      Option.getD_some]
    congr 1

/-- A call other than `fit`. -/
def EngineOp.IsRun : EngineOp → Prop
  | .fit _ => False
  | _ => True

theorem dict_foldl_not_mem {n : ℕ} (w : SurfRef → List (PName × (Fin n → ℝ))) (l : List SurfRef)
    (d : SurfRef → Params n) (b : SurfRef) (h : b ∉ l) :
    (l.foldl (fun d a => Function.update d a ((d a).update (w a))) d) b = d b := by
  induction l generalizing d with
  | nil => rfl
  | cons a l ih =>
    simp only [List.mem_cons, not_or] at h
    rw [List.foldl_cons, ih _ h.2, Function.update_of_ne h.1]

theorem dict_foldl_key {n : ℕ} (w : SurfRef → List (PName × (Fin n → ℝ))) (l : List SurfRef)
    (d : SurfRef → Params n) (b : SurfRef) (k : PName) (h : ∀ a, k ∉ (w a).map Prod.fst) :
    (l.foldl (fun d a => Function.update d a ((d a).update (w a))) d) b k = d b k := by
  induction l generalizing d with
  | nil => rfl
  | cons a l ih =>
    rw [List.foldl_cons, ih]
    by_cases e : b = a
    · subst e; rw [Function.update_self, Params.update_not_mem _ _ _ (h b)]
    · rw [Function.update_of_ne e]

theorem dict_foldl_mem {n : ℕ} (w : SurfRef → List (PName × (Fin n → ℝ))) (l : List SurfRef)
    (d : SurfRef → Params n) (b : SurfRef) (k : PName) (val : Fin n → ℝ)
    (h : ∀ d : Params n, d.update (w b) k = some val) (hb : b ∈ l) :
    (l.foldl (fun d a => Function.update d a ((d a).update (w a))) d) b k = some val := by
  induction l generalizing d with
  | nil => simp at hb
  | cons a l ih =>
    rw [List.foldl_cons]
    by_cases e : b ∈ l
    · exact ih _ e
    · rcases List.mem_cons.1 hb with rfl | hb
      · rw [dict_foldl_not_mem _ _ _ _ e, Function.update_self, h]
      · exact absurd hb e

theorem Fitted.FromInputs.writeFull {n : ℕ} {f : Fitted n} {c : EngineCfg} {v : Fin n → IrrIn}
    (h : f.FromInputs c v) (o : Fin n → FullOut) : (f.writeFull c.p o).FromInputs c v where
  u := h.u
  attrs := h.attrs
  dict := by
    intro a k hk
    rw [Fitted.writeFull]
    dsimp only
    rw [dict_foldl_key _ _ _ _ _ (by intro a; cases k <;> simp_all [PName.isOut]), h.dict a k hk]

theorem Fitted.FromInputs.writeFast {n : ℕ} {f : Fitted n} {c : EngineCfg} {v : Fin n → IrrIn}
    (h : f.FromInputs c v) (i : ℤ) (b : SurfRef) : (f.writeFast c i b).FromInputs c v where
  u := h.u
  attrs := h.attrs
  dict := by
    intro a k hk
    rw [Fitted.writeFast]
    dsimp only
    by_cases e : a = b
    · subst e
      rw [Function.update_self,
        Params.update_not_mem _ _ _ (by cases k <;> simp_all [PName.isOut]), h.dict a k hk]
    · rw [Function.update_of_ne e, h.dict a k hk]

theorem Fitted.FromInputs.writeFasts {n : ℕ} {f : Fitted n} {c : EngineCfg} {v : Fin n → IrrIn}
    (h : f.FromInputs c v) (i : ℤ) (l : List SurfRef) :
    (l.foldl (fun f a => f.writeFast c i a) f).FromInputs c v := by
  induction l generalizing f with
  | nil => exact h
  | cons a l ih => exact ih (h.writeFast i a)

theorem Fitted.FromInputs.hasParams {n : ℕ} {f : Fitted n} {c : EngineCfg} {v : Fin n → IrrIn}
    (h : f.FromInputs c v) (l : List SurfRef) :
    f.hasParams l (c.kind.comp ++ c.kind.compAbsorbed ++ [.rho, .invRho, .totalPerez]) := by
  intro a _ k hk
  rw [h.dict a k (by
    cases hc : c.kind <;> simp only [hc, IrrKind.comp, IrrKind.compAbsorbed, List.cons_append,
      List.nil_append, List.mem_cons, List.not_mem_nil, or_false] at hk <;>
    rcases hk with rfl | hk <;> simp_all [PName.isOut] <;> aesop (add simp PName.isOut))]
  cases hc : c.kind
  · simp only [hc, IrrKind.comp, IrrKind.compAbsorbed, List.cons_append,
      List.nil_append, List.mem_cons, List.not_mem_nil, or_false] at hk
    rcases hk with rfl | rfl | rfl | rfl | rfl <;>
      simp [fitDict, transformParams, hc, Params.update, Function.update_of_ne]
  · simp only [hc, IrrKind.comp, IrrKind.compAbsorbed, List.cons_append,
      List.nil_append, List.mem_cons, List.not_mem_nil, or_false] at hk
    rcases a with ⟨_, _, _⟩ | ⟨_, _ | _, _, _⟩ <;>
    rcases hk with rfl | rfl | rfl | rfl | rfl | rfl | rfl | rfl | rfl <;>
      simp [fitDict, transformParams, hc, Params.update, Function.update_of_ne]

/-- The engine has been fitted with the inputs `v`, whatever happened before and after. -/
def EngineState.FromInputs (st : EngineState) (c : EngineCfg) {n : ℕ} (v : Fin n → IrrIn) : Prop :=
  ∃ f : Fitted n, st.fitted = some ⟨n, f⟩ ∧ f.FromInputs c v

theorem engineFit_fromInputs (c : EngineCfg) (st : EngineState) {n : ℕ} (v : Fin n → IrrIn) :
    (engineFit c st v).FromInputs c v :=
  ⟨_, rfl, ⟨rfl, rfl, fun _ _ _ => rfl⟩⟩

theorem EngineState.FromInputs.full_eq {st : EngineState} {c : EngineCfg} {n : ℕ}
    {v : Fin n → IrrIn} (h : st.FromInputs c v) :
    ∃ f : Fitted n, st.fitted = some ⟨n, f⟩ ∧ f.FromInputs c v ∧ engineFull c st =
      match fullResult c v with
      | none => ({ st with vf := some ⟨n, tsVfMatrix c.p fun t => (v t).step⟩ }, false)
      | some o => ({ fitted := some ⟨n, f.writeFull c.p o⟩
                     vf := some ⟨n, fun t => (o t).vf⟩
                     vfAoi := some ⟨n, fun t => (o t).vfAoi⟩ }, true) := by
  obtain ⟨f, hf, hi⟩ := h
  refine ⟨f, hf, hi, ?_⟩
  have hr : f.read c.kind = fun t => irrStepOf c (v t) := funext hi.read
  rw [engineFull, hf]
  dsimp only
  rw [if_pos (hi.hasParams _), hr, hi.u, fullResult]
  rfl

theorem EngineState.FromInputs.fast_eq {st : EngineState} {c : EngineCfg} {n : ℕ}
    {v : Fin n → IrrIn} (h : st.FromInputs c v) (row segment : Option ℤ) :
    ∃ f : Fitted n, st.fitted = some ⟨n, f⟩ ∧ f.FromInputs c v ∧
      (engineFast c st row segment = (st, false) ∨
       ∃ (i : ℤ) (l : List SurfRef), engineFast c st row segment
        = ({ st with fitted := some ⟨n, l.foldl (fun f a => f.writeFast c i a) f⟩ }, true)) := by
  obtain ⟨f, hf, hi⟩ := h
  refine ⟨f, hf, hi, ?_⟩
  rw [engineFast, hf]
  dsimp only
  cases (if row.isNone then c.fastRow else row) with
  | none => exact Or.inl rfl
  | some i =>
    dsimp only
    generalize (if segment.isNone then c.fastSegment else segment) = sg
    split_ifs
    · exact Or.inr ⟨_, _, rfl⟩
    · exact Or.inl rfl

/-- The run modes keep everything they read. -/
theorem EngineState.FromInputs.step {st : EngineState} {c : EngineCfg} {n : ℕ}
    {v : Fin n → IrrIn} (h : st.FromInputs c v) (op : EngineOp) (hop : op.IsRun) :
    (engineStep c st op).1.FromInputs c v := by
  cases op with
  | fit => exact hop.elim
  | full =>
    obtain ⟨f, hf, hi, e⟩ := h.full_eq
    rw [engineStep, e]
    cases fullResult c v with
    | none => exact ⟨f, hf, hi⟩
    | some o => exact ⟨_, rfl, hi.writeFull o⟩
  | fast row segment =>
    obtain ⟨f, hf, hi, e | ⟨i, l, e⟩⟩ := h.fast_eq row segment
    · rw [engineStep, e]; exact ⟨f, hf, hi⟩
    · rw [engineStep, e]; exact ⟨_, rfl, hi.writeFasts i l⟩

theorem engineRun_append (c : EngineCfg) (st : EngineState) (l m : List EngineOp) :
    engineRun c st (l ++ m) = engineRun c (engineRun c st l) m := List.foldl_append ..

theorem engineRun_fromInputs (c : EngineCfg) (st : EngineState) {n : ℕ} (v : Fin n → IrrIn)
    (hist runs : List EngineOp) (hr : ∀ op ∈ runs, op.IsRun) :
    (engineRun c st (hist ++ .fit v :: runs)).FromInputs c v := by
  rw [engineRun_append]
  have : ∀ st : EngineState, st.FromInputs c v → (engineRun c st runs).FromInputs c v := by
    induction runs with
    | nil => exact fun _ h => h
    | cons op l ih =>
      intro st h
      exact ih (fun o ho => hr o (List.mem_cons_of_mem _ ho)) _
        (h.step op (hr op List.mem_cons_self))
  exact this _ (engineFit_fromInputs c _ v)

/-- What the user can read from an engine after a run: the parameter of a surface at all
time steps, if present. -/
def EngineState.result (st : EngineState) (n : ℕ) (a : SurfRef) (k : PName) :
    Option (Fin n → ℝ) :=
  match st.fitted with
  | some ⟨m, f⟩ => if h : m = n then h ▸ f.dict a k else none
  | none => none

theorem EngineState.result_eq {st : EngineState} {n : ℕ} {f : Fitted n}
    (h : st.fitted = some ⟨n, f⟩) (a : SurfRef) (k : PName) : st.result n a k = f.dict a k := by
  simp [EngineState.result, h]

theorem Fitted.writeFasts_dict {n : ℕ} {f : Fitted n} {c : EngineCfg} {v : Fin n → IrrIn}
    (h : f.FromInputs c v) (i : ℤ) (l : List SurfRef) :
    (l.foldl (fun f a => f.writeFast c i a) f).dict
      = l.foldl (fun d a => Function.update d a ((d a).update
          (let o := fun t => fastSurface c.p (fitStep c.p (v t).step) (irrStepOf c (v t)) i a
           [(.skyTerm, fun t => (o t).skyTerm), (.qinc, fun t => (o t).qinc),
            (.reflectionGndShaded, fun t => (o t).reflectionGndShaded),
            (.reflectionGndIllum, fun t => (o t).reflectionGndIllum),
            (.reflectionPvrowShaded, fun t => (o t).reflectionPvrowShaded),
            (.reflectionPvrowIllum, fun t => (o t).reflectionPvrowIllum),
            (.isotropic, fun t => (o t).isotropic),
            (.reflection, fun t => (o t).reflection)]))) f.dict := by
  induction l generalizing f with
  | nil => rfl
  | cons a l ih =>
    rw [List.foldl_cons, List.foldl_cons, ih (h.writeFast i a)]
    congr 1
    have hr : f.read c.kind = fun t => irrStepOf c (v t) := funext h.read
    rw [Fitted.writeFast, hr, h.u]

/-- **C38 (full mode).**  Take any engine, fitted and run arbitrarily often with arbitrary inputs
of arbitrary lengths (`hist`), then fitted with the inputs `v` and run arbitrarily often in any
mode (`runs`).  Running full mode now raises an exception exactly if the stateless computation from
`v` fails, and otherwise stores exactly the values of that computation. -/
theorem C38_full (c : EngineCfg) (hist runs : List EngineOp) (hr : ∀ op ∈ runs, op.IsRun) {n : ℕ}
    (v : Fin n → IrrIn) :
    let after := engineFull c (engineRun c newEngine (hist ++ .fit v :: runs))
    match fullResult c v with
    | none => after.2 = false
    | some o => after.2 = true
        ∧ after.1.vf = some ⟨n, fun t => (o t).vf⟩
        ∧ after.1.vfAoi = some ⟨n, fun t => (o t).vfAoi⟩
        ∧ ∀ a ∈ allRefs c.p,
          after.1.result n a .q0 = some (fun t => (o t).q0 a)
          ∧ after.1.result n a .qinc = some (fun t => (o t).qinc a)
          ∧ after.1.result n a .isotropic = some (fun t => (o t).isotropic a)
          ∧ after.1.result n a .reflection = some (fun t => (o t).reflection a)
          ∧ after.1.result n a .qabs = some (fun t => (o t).qabs a) := by
  intro after
  obtain ⟨f, hf, hi, e⟩ := (engineRun_fromInputs c newEngine v hist runs hr).full_eq
  cases ho : fullResult c v with
  | none => simp only [after, e, ho]
  | some o =>
    have e' : after = ({ fitted := some ⟨n, f.writeFull c.p o⟩
                         vf := some ⟨n, fun t => (o t).vf⟩
                         vfAoi := some ⟨n, fun t => (o t).vfAoi⟩ }, true) := by
      simp only [after, e, ho]
    rw [e']
    refine ⟨rfl, rfl, rfl, fun a ha => ?_⟩
    refine ⟨?_, ?_, ?_, ?_, ?_⟩ <;>
    · refine (EngineState.result_eq (f := f.writeFull c.p o) rfl _ _).trans ?_
      refine dict_foldl_mem _ _ _ _ _ _ (fun d => ?_) ha
      simp [Params.update, Function.update_of_ne]

theorem fastIndexOk_iff (p : ArrayParams) (i : ℤ) (segment : Option ℤ) :
    BackExists p i segment ↔ fastIndexOk p i segment := by
  unfold BackExists fastIndexOk
  rw [abs_lt]
  refine and_congr_right fun h => ?_
  have e : pyIdx p.nRows i = (i % p.nRows).toNat := by
    unfold pyIdx
    congr 1
    split_ifs with h0
    · rw [← Int.add_emod_right, Int.emod_eq_of_lt (by omega) (by omega)]
    · rw [Int.emod_eq_of_lt (by omega) (by omega)]
  rw [e]
  rfl

theorem pyIdx_emod {n : ℕ} {i : ℤ} (h : -(n : ℤ) ≤ i) (h' : i < n) :
    pyIdx n i = (i % n).toNat ∧ (pyIdx n i : ℤ) = i % n := by
  unfold pyIdx
  split_ifs with h0
  · rw [← Int.add_emod_right, Int.emod_eq_of_lt (by omega) (by omega)]
    omega
  · rw [Int.emod_eq_of_lt (by omega) (by omega)]
    omega

theorem mem_fastTargets {p : ArrayParams} {i : ℤ} {segment : Option ℤ} (h : BackExists p i segment)
    (a : SurfRef) : a ∈ fastTargets p i segment ↔ OnBack p i segment a := by
  obtain ⟨hi, hs⟩ := h
  rw [abs_lt] at hi
  unfold fastTargets OnBack
  rw [(pyIdx_emod (by omega) hi.2).1]
  cases segment with
  | none => simp [sideRefs, ArrayParams.nSeg]
  | some j =>
    have hj := hs j rfl
    dsimp only
    rw [(pyIdx_emod hj.1 hj.2).1]
    have h2 := (pyIdx_emod hj.1 hj.2).2
    rw [(pyIdx_emod hj.1 hj.2).1] at h2
    have h3 := Int.emod_lt_of_pos j (b := p.nBack (i % p.nRows).toNat) (by omega)
    simp only [List.mem_cons, List.not_mem_nil, or_false, Option.mem_def, Option.some.injEq,
      forall_eq']
    constructor
    · rintro (rfl | rfl)
      · exact ⟨_, by omega, false, rfl, h2⟩
      · exact ⟨_, by omega, true, rfl, h2⟩
    · rintro ⟨k, -, sh, rfl, hk⟩
      have : k = (j % p.nBack (i % p.nRows).toNat).toNat := by omega
      rw [← this]
      cases sh <;> simp

/-- **C38 (fast mode).**  After any history as in `C38_full`, running fast mode for a row and
segment (arguments of the call or, if missing, of the engine) raises an exception exactly if there
is no such row or segment; otherwise the entries of the back surfaces of that row or segment are
those of the stateless computation, and everything else is as before the call. -/
theorem C38_fast (c : EngineCfg) (hist runs : List EngineOp) (hr : ∀ op ∈ runs, op.IsRun) {n : ℕ}
    (v : Fin n → IrrIn) (row segment : Option ℤ) :
    let st := engineRun c newEngine (hist ++ .fit v :: runs)
    let after := engineFast c st row segment
    match row.or c.fastRow with
    | none => after = (st, false)
    | some i =>
      (¬ BackExists c.p i (segment.or c.fastSegment) → after = (st, false)) ∧
      (BackExists c.p i (segment.or c.fastSegment) →
        after.2 = true ∧ after.1.vf = st.vf ∧ after.1.vfAoi = st.vfAoi ∧
        (∀ a, ¬ OnBack c.p i (segment.or c.fastSegment) a → ∀ k,
          after.1.result n a k = st.result n a k) ∧
        ∀ a, OnBack c.p i (segment.or c.fastSegment) a →
          ∃ o : Fin n → FastOut,
          (∀ t, fastResult c v i (segment.or c.fastSegment) t a = some (o t))
          ∧ after.1.result n a .qinc = some (fun t => (o t).qinc)
          ∧ after.1.result n a .isotropic = some (fun t => (o t).isotropic)
          ∧ after.1.result n a .reflection = some (fun t => (o t).reflection)
          ∧ after.1.result n a .skyTerm = some (fun t => (o t).skyTerm)
          ∧ after.1.result n a .reflectionGndShaded = some (fun t => (o t).reflectionGndShaded)
          ∧ after.1.result n a .reflectionGndIllum = some (fun t => (o t).reflectionGndIllum)
          ∧ after.1.result n a .reflectionPvrowShaded = some (fun t => (o t).reflectionPvrowShaded)
          ∧ after.1.result n a .reflectionPvrowIllum
            = some (fun t => (o t).reflectionPvrowIllum)) := by
  intro st after
  obtain ⟨f, hf, hi⟩ := engineRun_fromInputs c newEngine v hist runs hr
  have hor : ∀ x y : Option ℤ, (if x.isNone then y else x) = x.or y := by
    intro x y; cases x <;> rfl
  have e : after = engineFast c st row segment := rfl
  have hf' : st.fitted = some ⟨n, f⟩ := hf
  rw [engineFast, hf'] at e
  dsimp only at e
  rw [hor, hor] at e
  cases hrow : row.or c.fastRow with
  | none => rw [hrow] at e; exact e
  | some i =>
    rw [hrow] at e
    dsimp only at e ⊢
    rw [fastIndexOk_iff]
    have hp : ∀ l, f.hasParams l c.kind.comp := fun l a ha k hk =>
      hi.hasParams l a ha k (by simp [hk])
    constructor
    · intro hno
      rw [e, if_neg (fun h => hno h.1)]
    · intro hok
      rw [if_pos ⟨hok, hp _⟩] at e
      rw [e]
      refine ⟨rfl, rfl, rfl, ?_, ?_⟩
      · intro a ha k
        rw [← mem_fastTargets ((fastIndexOk_iff _ _ _).2 hok)] at ha
        rw [EngineState.result_eq rfl, EngineState.result_eq hf', Fitted.writeFasts_dict hi,
          dict_foldl_not_mem _ _ _ _ ha]
      · intro a ha
        rw [← mem_fastTargets ((fastIndexOk_iff _ _ _).2 hok)] at ha
        refine ⟨fun t => fastSurface c.p (fitStep c.p (v t).step) (irrStepOf c (v t)) i a,
          fun t => by rw [fastResult, runFastMode_eq, if_pos ha], ?_⟩
        refine ⟨?_, ?_, ?_, ?_, ?_, ?_, ?_, ?_⟩ <;>
        · refine (EngineState.result_eq rfl _ _).trans ?_
          rw [Fitted.writeFasts_dict hi]
          refine dict_foldl_mem _ _ _ _ _ _ (fun d => ?_) ha
          simp [Params.update, Function.update_of_ne]

/-- **C38 (fit).**  After `fit` the whole fitted state is that of a new engine fitted with the same
inputs: no parameter of an earlier fit or run survives. -/
theorem C38_fit (c : EngineCfg) (hist : List EngineOp) {n : ℕ} (v : Fin n → IrrIn) :
    (engineRun c newEngine (hist ++ [.fit v])).fitted
      = (engineRun c newEngine [.fit v]).fitted := by
  rw [engineRun_append]; rfl

/-- **C38 (two engines).**  Full mode gives the same results on two engines with the same
parameters, however they were used before, once both are fitted with the same inputs. -/
theorem C38_same_results (c : EngineCfg) (hist hist' runs runs' : List EngineOp)
    (hr : ∀ op ∈ runs, op.IsRun) (hr' : ∀ op ∈ runs', op.IsRun) {n : ℕ} (v : Fin n → IrrIn) :
    let x := engineFull c (engineRun c newEngine (hist ++ .fit v :: runs))
    let y := engineFull c (engineRun c newEngine (hist' ++ .fit v :: runs'))
    x.2 = y.2 ∧ (x.2 = true → x.1.vf = y.1.vf ∧ x.1.vfAoi = y.1.vfAoi ∧
      ∀ a ∈ allRefs c.p, ∀ k ∈ [PName.q0, .qinc, .isotropic, .reflection, .qabs],
        x.1.result n a k = y.1.result n a k ∧ (x.1.result n a k).isSome) := by
  intro x y
  have hx := C38_full c hist runs hr v
  have hy := C38_full c hist' runs' hr' v
  cases ho : fullResult c v with
  | none =>
    rw [ho] at hx hy
    have hx' : x.2 = false := hx
    have hy' : y.2 = false := hy
    refine ⟨hx'.trans hy'.symm, fun h => ?_⟩
    rw [hx'] at h; cases h
  | some o =>
    rw [ho] at hx hy
    obtain ⟨x1, x2, x3, x4⟩ := hx
    obtain ⟨y1, y2, y3, y4⟩ := hy
    refine ⟨x1.trans y1.symm, fun _ => ⟨x2.trans y2.symm, x3.trans y3.symm, fun a ha k hk => ?_⟩⟩
    obtain ⟨xa, xb, xc, xd, xe⟩ := x4 a ha
    obtain ⟨ya, yb, yc, yd, ye⟩ := y4 a ha
    simp only [List.mem_cons, List.not_mem_nil, or_false] at hk
    rcases hk with rfl | rfl | rfl | rfl | rfl
    · exact ⟨xa.trans ya.symm, by rw [xa]; rfl⟩
    · exact ⟨xb.trans yb.symm, by rw [xb]; rfl⟩
    · exact ⟨xc.trans yc.symm, by rw [xc]; rfl⟩
    · exact ⟨xd.trans yd.symm, by rw [xd]; rfl⟩
    · exact ⟨xe.trans ye.symm, by rw [xe]; rfl⟩

/-- **C38 (no fit).**  On an engine that was never fitted every run raises an exception and leaves
the engine as it was made: no results, no matrices. -/
theorem C38_unfitted (c : EngineCfg) (runs : List EngineOp) (hr : ∀ op ∈ runs, op.IsRun)
    (op : EngineOp) (ho : op.IsRun) :
    let after := engineStep c (engineRun c newEngine runs) op
    after.2 = false ∧ after.1.vf = none ∧ after.1.vfAoi = none ∧
      ∀ n a k, after.1.result n a k = none := by
  have h1 : ∀ op : EngineOp, op.IsRun → engineStep c newEngine op = (newEngine, false) := by
    intro op ho
    cases op with
    | fit v => exact absurd ho (by simp [EngineOp.IsRun])
    | full => rfl
    | fast row segment => simp [engineStep, engineFast, newEngine]
  have h2 : engineRun c newEngine runs = newEngine := by
    induction runs with
    | nil => rfl
    | cons x l ih =>
      have e : engineRun c newEngine (x :: l) = engineRun c (engineStep c newEngine x).1 l := rfl
      rw [e, h1 x (hr x (by simp))]
      exact ih fun y hy => hr y (by simp [hy])
  intro after
  have e : after = (newEngine, false) := by simp only [after, h2, h1 op ho]
  rw [e]
  exact ⟨rfl, rfl, rfl, fun _ _ _ => rfl⟩

/-- The matrices of an earlier run stay in the array after a new `fit`, until the next full mode
run: the only trace of the past. -/
theorem C38_stale_matrices (c : EngineCfg) (st : EngineState) {n : ℕ} (v : Fin n → IrrIn) :
    (engineFit c st v).vf = st.vf ∧ (engineFit c st v).vfAoi = st.vfAoi := ⟨rfl, rfl⟩

/-- Direct and diffuse light on the tilted rows of `shadeStep`. -/
noncomputable def shadeIrrIn : IrrIn :=
  { demoIrrIn with solarZenith := 60, solarAzimuth := 270, surfaceTilt := 30, surfaceAzimuth := 270 }

/-- An engine for two rows with shading, hybrid Perez model. -/
noncomputable def demoCfg : EngineCfg where
  p := denseArray
  kind := .hybridPerez
  q := demoIrrParams
  aoi := none
  fastRow := some 1
  fastSegment := none

/-- C38 applies to a case that runs: an engine used with two time steps, then fitted with three,
run in fast mode, then in full mode.  Full mode returns, with a result for the shaded part of the
front of row 1 that the earlier calls cannot influence. -/
theorem C38_demo :
    let hist : List EngineOp := [.full, .fit (fun _ : Fin 2 => demoIrrIn), .full, .fast none none]
    let after := engineFull demoCfg
      (engineRun demoCfg newEngine (hist ++ .fit (fun _ : Fin 3 => shadeIrrIn) :: [.fast none none]))
    ∃ o, fullResult demoCfg (fun _ : Fin 3 => shadeIrrIn) = some o ∧ after.2 = true ∧
      after.1.result 3 (.pv 1 .front 0 true) .qinc
        = some (fun t => (o t).qinc (.pv 1 .front 0 true)) := by
  intro hist after
  obtain ⟨o, ho⟩ := C07_hybrid denseArray (fun _ : Fin 3 => shadeStep) demoIrrParams
    (fun _ => shadeIrrIn) (aoiOf none denseArray fun _ => shadeStep)
    (fun _ => ⟨demo_losses.front, demo_losses.back, demo_losses.albedo⟩) dense_physicalArray
    (fun _ => shade_physicalStep)
  have ho' : fullResult demoCfg (fun _ : Fin 3 => shadeIrrIn) = some o := ho
  have h := C38_full demoCfg hist [.fast none none] (by simp [EngineOp.IsRun])
    (fun _ : Fin 3 => shadeIrrIn)
  rw [ho'] at h
  refine ⟨o, ho', h.1, (h.2.2.2 _ ?_).2.1⟩
  simp [demoCfg, mem_allRefs_pv, denseArray, ArrayParams.nSeg, ArrayParams.nFront]

end PVF
