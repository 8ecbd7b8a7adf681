import Verif.Spec.Dicts
import Verif.Props.State
import Verif.Props.Structure
import Verif.Props.GroundAtMore

/-!
# Parameters of parts of an array
-/

namespace PVF

variable {K V : Type*} [DecidableEq K]

theorem dictUpdate_apply (new : List (K × V)) (d : K → Option V) (k : K) :
    dictUpdate d new k = match lastGiven new k with
      | some v => some v
      | none => d k := by
  induction new generalizing d with
  | nil => rfl
  | cons a rest ih =>
    have h := ih (Function.update d a.1 (some a.2))
    have e : dictUpdate d (a :: rest) = dictUpdate (Function.update d a.1 (some a.2)) rest := rfl
    rw [e, h]
    obtain ⟨k', v⟩ := a
    simp only [lastGiven]
    cases lastGiven rest k with
    | some w => rfl
    | none =>
      by_cases hk : k' = k
      · subst hk; simp
      · simp [hk, Function.update_of_ne (Ne.symm hk)]

theorem dictUpdate_idem (new : List (K × V)) (d : K → Option V) :
    dictUpdate (dictUpdate d new) new = dictUpdate d new := by
  funext k
  rw [dictUpdate_apply, dictUpdate_apply]
  cases lastGiven new k <;> rfl

/-- Writing to several dictionaries. -/
def writeAll (l : List DictRef) (new : DictRef → List (K × V)) (h : Dicts K V) : Dicts K V :=
  l.foldl (fun h r => h.write r (new r)) h

theorem writeAll_append (l m : List DictRef) (new : DictRef → List (K × V)) (h : Dicts K V) :
    writeAll (l ++ m) new h = writeAll m new (writeAll l new h) := by
  simp [writeAll, List.foldl_append]

theorem writeAll_flatMap {α : Type*} (l : List α) (f : α → List DictRef)
    (new : DictRef → List (K × V)) (h : Dicts K V) :
    writeAll (l.flatMap f) new h = l.foldl (fun h a => writeAll (f a) new h) h := by
  induction l generalizing h with
  | nil => rfl
  | cons a l ih => simp only [List.flatMap_cons, writeAll_append, List.foldl_cons, ih]

theorem writeAll_map {α : Type*} (l : List α) (f : α → DictRef) (new : DictRef → List (K × V))
    (h : Dicts K V) :
    writeAll (l.map f) new h = l.foldl (fun h a => h.write (f a) (new (f a))) h := by
  simp [writeAll, List.foldl_map]

theorem writeAll_cons (a : DictRef) (l : List DictRef) (new : DictRef → List (K × V))
    (h : Dicts K V) : writeAll (a :: l) new h = writeAll l new (h.write a (new a)) := rfl

theorem writeAll_apply (l : List DictRef) (new : DictRef → List (K × V)) (h : Dicts K V)
    (r : DictRef) : writeAll l new h r = if r ∈ l then dictUpdate (h r) (new r) else h r := by
  induction l generalizing h with
  | nil => simp [writeAll]
  | cons a l ih =>
    rw [writeAll_cons, ih]
    by_cases e : r = a
    · subst e
      by_cases hr : r ∈ l <;> simp [hr, Dicts.write, dictUpdate_idem]
    · by_cases hr : r ∈ l <;> simp [hr, e, Dicts.write]

theorem writeAll_congr {l : List DictRef} {new new' : DictRef → List (K × V)}
    (e : ∀ r ∈ l, new r = new' r) (h : Dicts K V) : writeAll l new h = writeAll l new' h := by
  funext r
  rw [writeAll_apply, writeAll_apply]
  by_cases hr : r ∈ l
  · simp [hr, e r hr]
  · simp [hr]

theorem writeAll_exact (l : List DictRef) (new : List (K × V)) (h : Dicts K V) :
    UpdatesExactly (· ∈ l) new h (writeAll l (fun _ => new) h) := by
  refine ⟨fun r hr k => ?_, fun r hr => ?_⟩
  · have hr : r ∈ l := hr
    rw [writeAll_apply, if_pos hr, dictUpdate_apply]
    cases lastGiven new k <;> rfl
  · have hr : ¬ r ∈ l := hr
    rw [writeAll_apply, if_neg hr]

theorem UpdatesExactly.congr {S T : DictRef → Prop} {new : List (K × V)} {h h' : Dicts K V}
    (u : UpdatesExactly S new h h') (e : ∀ r, S r ↔ T r) : UpdatesExactly T new h h' := by
  have : S = T := funext fun r => propext (e r)
  rwa [← this]

/-- References of the dictionaries of a segment. -/
def segDicts (r : ℕ) (s : RowSide) (k : ℕ) : List DictRef :=
  [.surface (.pv r s k false), .surface (.pv r s k true)]

theorem updateSegment_eq (r : ℕ) (s : RowSide) (k : ℕ) (new : List (K × V)) (h : Dicts K V) :
    updateSegment r s k new h = writeAll (segDicts r s k) (fun _ => new) h := rfl

theorem updateSide_eq (p : ArrayParams) (r : ℕ) (s : RowSide) (new : List (K × V)) (h : Dicts K V) :
    updateSide p r s new h = writeAll ((List.range (p.nSeg r s)).flatMap (segDicts r s)) (fun _ => new) h := by
  rw [writeAll_flatMap]; rfl

/-- References of the dictionaries of a row. -/
def rowDicts (p : ArrayParams) (r : ℕ) : List DictRef :=
  (List.range (p.nSeg r .front)).flatMap (segDicts r .front)
    ++ (List.range (p.nSeg r .back)).flatMap (segDicts r .back)

theorem updateRow_eq (p : ArrayParams) (r : ℕ) (new : List (K × V)) (h : Dicts K V) :
    updateRow p r new h = writeAll (rowDicts p r) (fun _ => new) h := by
  rw [rowDicts, writeAll_append, updateRow, updateSide_eq, updateSide_eq]

/-- References of the dictionaries of the shaded or illuminated ground. -/
def groundDicts (p : ArrayParams) (shaded : Bool) : List DictRef :=
  .ground shaded :: (List.range (nElements p shaded)).flatMap fun e =>
    .element shaded e :: (List.range (p.nRows + 1)).map fun z => .surface (.gnd shaded e z)

theorem updateGroundPart_eq (p : ArrayParams) (shaded : Bool) (new : List (K × V)) (h : Dicts K V) :
    updateGroundPart p shaded new h = writeAll (groundDicts p shaded) (fun _ => new) h := by
  rw [groundDicts, writeAll_cons, writeAll_flatMap]
  simp only [writeAll_cons, writeAll_map]
  rfl

theorem mem_segDicts {r : ℕ} {s : RowSide} {k : ℕ} (d : DictRef) :
    d ∈ segDicts r s k ↔ OfSegment r s k d := by
  rcases d with sh | ⟨sh, e⟩ | ⟨_ | ⟨r', s', k', sh⟩⟩ <;> simp [segDicts, OfSegment]
  cases sh <;> simp

theorem mem_side {p : ArrayParams} {r : ℕ} {s : RowSide} (d : DictRef) :
    d ∈ (List.range (p.nSeg r s)).flatMap (segDicts r s) ↔ OfSide p r s d := by
  simp only [List.mem_flatMap, List.mem_range, mem_segDicts]
  rcases d with sh | ⟨sh, e⟩ | ⟨_ | ⟨r', s', k', sh⟩⟩ <;> simp [OfSegment, OfSide]
  tauto

theorem mem_row {p : ArrayParams} {r : ℕ} (d : DictRef) : d ∈ rowDicts p r ↔ OfRow p r d := by
  rw [rowDicts, List.mem_append, mem_side, mem_side]
  rcases d with sh | ⟨sh, e⟩ | ⟨_ | ⟨r', s', k', sh⟩⟩ <;> simp [OfSide, OfRow]
  cases s' <;> simp

theorem mem_groundDicts {p : ArrayParams} {shaded : Bool} (d : DictRef) :
    d ∈ groundDicts p shaded ↔ OfGround p shaded d := by
  rcases d with sh | ⟨sh, e⟩ | ⟨⟨sh, e, z⟩ | ⟨r', s', k', sh⟩⟩ <;>
    cases shaded <;> simp [groundDicts, OfGround, nElements] <;> grind

/-- Updating the parameters of a collection, a segment, a side or a row changes exactly the surfaces
of that part, and of each surface exactly the given keys. -/
theorem C69_row_parts (p : ArrayParams) (r : ℕ) (s : RowSide) (k : ℕ) (l : List SurfRef)
    (new : List (K × V)) (h : Dicts K V) :
    UpdatesExactly (fun d => ∃ a ∈ l, d = .surface a) new h (updateColl l new h) ∧
    UpdatesExactly (OfSegment r s k) new h (updateSegment r s k new h) ∧
    UpdatesExactly (OfSide p r s) new h (updateSide p r s new h) ∧
    UpdatesExactly (OfRow p r) new h (updateRow p r new h) := by
  refine ⟨?_, ?_, ?_, ?_⟩
  · have e : updateColl l new h = writeAll (l.map DictRef.surface) (fun _ => new) h := by
      rw [writeAll_map]; rfl
    rw [e]
    exact (writeAll_exact _ new h).congr fun d => by simp [eq_comm]
  · rw [updateSegment_eq]; exact (writeAll_exact _ new h).congr mem_segDicts
  · rw [updateSide_eq]; exact (writeAll_exact _ new h).congr mem_side
  · rw [updateRow_eq]; exact (writeAll_exact _ new h).congr mem_row

/-- The same for the shaded or illuminated ground (with its own dictionaries), the ground and the
array. -/
theorem C69_ground_array (p : ArrayParams) (shaded : Bool) (new : List (K × V)) (h : Dicts K V) :
    UpdatesExactly (OfGround p shaded) new h (updateGroundPart p shaded new h) ∧
    UpdatesExactly (fun d => OfGround p true d ∨ OfGround p false d) new h (updateGround p new h) ∧
    UpdatesExactly (OfArray p) new h (updateArray p new h) := by
  have hg : updateGround p new h = writeAll (groundDicts p false ++ groundDicts p true)
      (fun _ => new) h := by
    rw [writeAll_append, updateGround, updateGroundPart_eq, updateGroundPart_eq]
  refine ⟨?_, ?_, ?_⟩
  · rw [updateGroundPart_eq]; exact (writeAll_exact _ new h).congr mem_groundDicts
  · rw [hg]
    exact (writeAll_exact _ new h).congr fun d => by
      rw [List.mem_append, mem_groundDicts, mem_groundDicts, or_comm]
  · have e : updateArray p new h = writeAll ((groundDicts p false ++ groundDicts p true)
        ++ (List.range p.nRows).flatMap (rowDicts p)) (fun _ => new) h := by
      rw [writeAll_append, ← hg, writeAll_flatMap]
      simp only [updateArray, updateRow_eq]
    rw [e]
    refine (writeAll_exact _ new h).congr fun d => ?_
    simp only [List.mem_append, mem_groundDicts, List.mem_flatMap, List.mem_range, mem_row, OfArray]
    tauto

/-- What `transform` writes to a dictionary. -/
def transformNew (new : SurfRef → List (K × V)) : DictRef → List (K × V)
  | .ground sh => new (.gnd sh 0 0)
  | .element sh _ => new (.gnd sh 0 0)
  | .surface (.gnd sh _ _) => new (.gnd sh 0 0)
  | .surface a => new a

theorem transformDicts_eq (p : ArrayParams) (new : SurfRef → List (K × V)) (h : Dicts K V) :
    transformDicts p new h = writeAll ((groundDicts p false ++ groundDicts p true)
      ++ (List.range p.nRows).flatMap (rowDicts p)) (transformNew new) h := by
  have hg : ∀ sh, ∀ r ∈ groundDicts p sh, transformNew new r = new (.gnd sh 0 0) := by
    intro sh r hr
    rw [mem_groundDicts] at hr
    rcases r with sh' | ⟨sh', e⟩ | ⟨⟨sh', e, z⟩ | ⟨r', s', k', sh'⟩⟩ <;> simp [OfGround] at hr <;>
      simp [transformNew, hr]
  rw [writeAll_append, writeAll_append, writeAll_congr (hg false), writeAll_congr (hg true),
    ← updateGroundPart_eq, ← updateGroundPart_eq, writeAll_flatMap]
  simp only [rowDicts, writeAll_append, writeAll_flatMap]
  rfl

theorem transformDicts_apply (p : ArrayParams) (new : SurfRef → List (K × V)) (h : Dicts K V)
    (r : DictRef) (hr : OfArray p r) :
    transformDicts p new h r = dictUpdate (h r) (transformNew new r) := by
  rw [transformDicts_eq, writeAll_apply, if_pos]
  simp only [List.mem_append, mem_groundDicts, List.mem_flatMap, List.mem_range, mem_row]
  unfold OfArray at hr
  tauto

theorem ofArray_surface {p : ArrayParams} {a : SurfRef} : OfArray p (.surface a) ↔ a ∈ allRefs p := by
  rcases a with ⟨sh, e, z⟩ | ⟨r, s, k, sh⟩
  · rw [mem_allRefs_gnd]
    cases sh <;> simp [OfArray, OfGround, OfRow] <;> omega
  · rw [mem_allRefs_pv]
    simp [OfArray, OfGround, OfRow]

/-- Surfaces of the same part of the ground are given the same parameters. -/
theorem transformParams_ground (c : EngineCfg) {n : ℕ} (v : Fin n → IrrIn) (sh : Bool) (e z : ℕ) :
    transformParams c v (.gnd sh e z) = transformParams c v (.gnd sh 0 0) := by
  unfold transformParams
  cases c.kind <;> cases sh <;> rfl

/-- After `fit` the dictionary of every surface is the one of the model of the engine, and the shaded
(illuminated) ground as a whole and its elements have the same parameters as their surfaces. -/
theorem C69_fit (c : EngineCfg) {n : ℕ} (v : Fin n → IrrIn) :
    (∀ a ∈ allRefs c.p, fittedDicts c v (.surface a) = fitDict c v a) ∧
    ∀ sh, ∀ e < c.p.nRows + (if sh then 0 else 1), ∀ z ≤ c.p.nRows,
      fittedDicts c v (.ground sh) = fittedDicts c v (.surface (.gnd sh e z)) ∧
      fittedDicts c v (.element sh e) = fittedDicts c v (.surface (.gnd sh e z)) := by
  refine ⟨fun a ha => ?_, fun sh e he z hz => ?_⟩
  · rw [fittedDicts, transformDicts_apply _ _ _ _ (ofArray_surface.2 ha)]
    rcases a with ⟨sh, e, z⟩ | ⟨r, s, k, sh⟩
    · simp only [transformNew]
      rw [← transformParams_ground c v sh e z]
      rfl
    · rfl
  · have h1 : OfArray c.p (.ground sh) := by cases sh <;> simp [OfArray, OfGround]
    have h2 : OfArray c.p (.element sh e) := by
      cases sh <;> simp [OfArray, OfGround, OfRow] <;> simpa using he
    have h3 : OfArray c.p (.surface (.gnd sh e z)) := by
      cases sh <;> simp [OfArray, OfGround, OfRow] <;> exact ⟨by simpa using he, hz⟩
    rw [fittedDicts, transformDicts_apply _ _ _ _ h1, transformDicts_apply _ _ _ _ h2,
      transformDicts_apply _ _ _ _ h3]
    exact ⟨rfl, rfl⟩

theorem fullDicts_eq (p : ArrayParams) {n : ℕ} (o : Fin n → FullOut) (h : Dicts PName (Fin n → ℝ)) :
    fullDicts p o h = writeAll ((allRefs p).map DictRef.surface)
      (fun r => match r with
        | .surface a => fullParams o a
        | _ => []) h := by
  rw [writeAll_map]; rfl

/-- `run_full_mode` writes its results to the surfaces only: after it each surface has an incident
irradiance, the ground as a whole and its elements have none, whatever they had after `fit`. -/
theorem C69_results (c : EngineCfg) {n : ℕ} (v : Fin n → IrrIn) (o : Fin n → FullOut) :
    (∀ a ∈ allRefs c.p, fullDicts c.p o (fittedDicts c v) (.surface a) .qinc
      = some fun t => (o t).qinc a) ∧
    (∀ sh, fullDicts c.p o (fittedDicts c v) (.ground sh) = fittedDicts c v (.ground sh)) ∧
    (∀ sh e, fullDicts c.p o (fittedDicts c v) (.element sh e) = fittedDicts c v (.element sh e)) ∧
    ∀ sh, ∀ k ∈ [PName.q0, .qinc, .isotropic, .reflection, .qabs],
      fullDicts c.p o (fittedDicts c v) (.ground sh) k = none := by
  have hg : ∀ sh, fullDicts c.p o (fittedDicts c v) (.ground sh) = fittedDicts c v (.ground sh) := by
    intro sh
    rw [fullDicts_eq, writeAll_apply, if_neg (by simp)]
  refine ⟨fun a ha => ?_, hg, fun sh e => ?_, fun sh k hk => ?_⟩
  · rw [fullDicts_eq, writeAll_apply, if_pos (by simpa using ha)]
    simp [dictUpdate, fullParams]
  · rw [fullDicts_eq, writeAll_apply, if_neg (by simp)]
  · rw [hg, fittedDicts, transformDicts_apply _ _ _ _ (by cases sh <;> simp [OfArray, OfGround])]
    simp only [transformNew, transformParams]
    simp only [List.mem_cons, List.not_mem_nil, or_false] at hk
    cases c.kind <;> rcases hk with rfl | rfl | rfl | rfl | rfl <;> simp [dictUpdate]

/-- So the ground geometry of a time step without cut points has no results: asking one of its
surfaces for `qinc` is a `KeyError`, while the inputs such as the direct light are there. -/
theorem C69_no_results (c : EngineCfg) {n : ℕ} (v : Fin n → IrrIn) (o : Fin n → FullOut)
    (g : Fin n → GroundIn) (t : Fin n) (merge : Bool) :
    let G := groundAtNoCuts g (fullDicts c.p o (fittedDicts c v)) t merge
    (∀ s ∈ G.shaded, G.dicts s.2 .qinc = none ∧
      G.dicts s.2 .direct = some ((directCats c.q (v t)).groundShaded)) ∧
    ∀ s ∈ G.illum, G.dicts s.2 .qinc = none ∧
      G.dicts s.2 .direct = some ((directCats c.q (v t)).groundIllum) := by
  intro G
  obtain ⟨-, r2, -, r4⟩ := C69_results c v o
  have hd : ∀ sh, fittedDicts c v (.ground sh) .direct
      = some fun t => (directCats c.q (v t)).get (.gnd sh 0 0) := by
    intro sh
    rw [fittedDicts, transformDicts_apply _ _ _ _ (by cases sh <;> simp [OfArray, OfGround])]
    simp only [transformNew, transformParams]
    cases c.kind <;> simp [dictUpdate]
  refine ⟨fun s hs => ?_, fun s hs => ?_⟩
  · simp only [G, groundAtNoCuts, List.mem_map] at hs ⊢
    obtain ⟨s', -, rfl⟩ := hs
    simp only [if_true, dictAtIdx]
    rw [r4 true .qinc (by simp), r2, hd]
    exact ⟨rfl, rfl⟩
  · simp only [G, groundAtNoCuts, List.mem_map] at hs ⊢
    obtain ⟨s', -, rfl⟩ := hs
    simp only [one_ne_zero, if_false, dictAtIdx]
    rw [r4 false .qinc (by simp), r2, hd]
    exact ⟨rfl, rfl⟩

/-- The surfaces of that geometry share their dictionary: a parameter set on one shaded surface is
read from every other shaded one, and not from an illuminated one; likewise for illuminated ones. -/
theorem C69_shared {n : ℕ} (g : Fin n → GroundIn) (h : Dicts K (Fin n → ℝ)) (t : Fin n) (merge : Bool)
    (k : K) (x : ℝ) :
    let G := groundAtNoCuts g h t merge
    (∀ s ∈ G.shaded, (∀ s' ∈ G.shaded, (G.update s.2 [(k, x)]).dicts s'.2 k = some x) ∧
      ∀ s' ∈ G.illum, (G.update s.2 [(k, x)]).dicts s'.2 = G.dicts s'.2) ∧
    ∀ s ∈ G.illum, (∀ s' ∈ G.illum, (G.update s.2 [(k, x)]).dicts s'.2 k = some x) ∧
      ∀ s' ∈ G.shaded, (G.update s.2 [(k, x)]).dicts s'.2 = G.dicts s'.2 := by
  intro G
  have hs : ∀ s ∈ G.shaded, s.2 = 0 := by
    intro s hs
    simp only [G, groundAtNoCuts, List.mem_map] at hs
    obtain ⟨s', -, rfl⟩ := hs; rfl
  have hi : ∀ s ∈ G.illum, s.2 = 1 := by
    intro s hs
    simp only [G, groundAtNoCuts, List.mem_map] at hs
    obtain ⟨s', -, rfl⟩ := hs; rfl
  refine ⟨fun s h1 => ⟨fun s' h2 => ?_, fun s' h2 => ?_⟩,
    fun s h1 => ⟨fun s' h2 => ?_, fun s' h2 => ?_⟩⟩
  · rw [hs s h1, hs s' h2]; simp [GroundGeom.update, dictUpdate]
  · rw [hs s h1, hi s' h2]; simp [GroundGeom.update]
  · rw [hi s h1, hi s' h2]; simp [GroundGeom.update, dictUpdate]
  · rw [hi s h1, hs s' h2]; simp [GroundGeom.update]

/-- The theorem is about grounds with several surfaces: on the demonstration ground with two shadows, a
parameter set on the left one is read from the right one. -/
theorem C69_demo (h : Dicts String (Fin 1 → ℝ)) :
    let G := groundAtNoCuts (fun _ => demoGround) h 0 false
    ∃ s ∈ G.shaded, ∃ s' ∈ G.shaded, s.1 = ⟨⟨0, Y_GROUND⟩, ⟨2, Y_GROUND⟩⟩ ∧
      s'.1 = ⟨⟨2, Y_GROUND⟩, ⟨5, Y_GROUND⟩⟩ ∧
      (G.update s.2 [("albedo", 0.3)]).dicts s'.2 "albedo" = some 0.3 := by
  intro G
  have m : ∀ i, i < 2 → (demoGround.shadowEl i, 0) ∈ G.shaded := by
    intro i hi
    have hn : i ∈ demoGround.nonPointShadows := by
      rw [mem_nonPointShadows]
      refine ⟨hi, ?_⟩
      interval_cases i
      · rw [demoGround_el0, Line.length_ground rfl]; norm_num [TOL]
      · rw [demoGround_el1, Line.length_ground rfl]; norm_num [TOL]
    simp only [G, groundAtNoCuts, GroundIn.shadedAt, List.mem_map]
    exact ⟨⟨demoGround.shadowEl i, 0⟩, by simpa using ⟨i, hn, rfl⟩, rfl⟩
  refine ⟨_, m 0 (by norm_num), _, m 1 (by norm_num), demoGround_el0, demoGround_el1, ?_⟩
  exact ((C69_shared (fun _ => demoGround) h 0 false "albedo" 0.3).1 _ (m 0 (by norm_num))).1 _
    (m 1 (by norm_num))

end PVF
