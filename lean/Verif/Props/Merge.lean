import Verif.Model.Run
import Mathlib.Data.List.GetD
import Mathlib.Tactic.Linarith
import Mathlib.Tactic.Ring

/-!
# C14 and C40: splitting of the inputs, merging of reports
-/

namespace PVF

/-! ## C14 -/

theorem divPoints_getD {N s i : ℕ} (hs : 0 < s) (hi : i ≤ s) :
    (divPoints N s).getD i 0 = i * (N / s) + min i (N % s) := by
  have he : N % s < s := Nat.mod_lt _ hs
  have hl : (divPoints N s).length = s + 1 := by simp [divPoints, cumsum]; omega
  rw [List.getD_eq_getElem _ _ (by omega)]
  simp only [divPoints, cumsum, List.getElem_map, List.getElem_range, List.take_succ_cons,
    List.sum_cons, zero_add, List.take_append, List.take_replicate, List.length_replicate,
    List.sum_append, List.sum_replicate, smul_eq_mul]
  by_cases h : i ≤ N % s
  · rw [min_eq_left h, Nat.sub_eq_zero_of_le h]; simp; ring
  · have h' : N % s ≤ i := by omega
    rw [min_eq_right h', min_eq_left (by omega)]
    obtain ⟨d, rfl⟩ := Nat.exists_eq_add_of_le h'
    rw [Nat.add_sub_cancel_left]; ring

/-- Where section `i` of `s` sections starts. -/
def divPt (N s i : ℕ) : ℕ := i * (N / s) + min i (N % s)

theorem divPt_zero (N s : ℕ) : divPt N s 0 = 0 := by simp [divPt]

theorem divPt_last {N s : ℕ} (hs : 0 < s) : divPt N s s = N := by
  unfold divPt
  rw [min_eq_right (Nat.mod_lt _ hs).le]
  exact Nat.div_add_mod N s

theorem divPt_succ (N s i : ℕ) :
    divPt N s (i + 1) = divPt N s i + (N / s + if i < N % s then 1 else 0) := by
  unfold divPt
  split_ifs with h
  · rw [min_eq_left h, min_eq_left h.le]; ring
  · rw [min_eq_right (by omega), min_eq_right (by omega)]; ring

theorem divPt_mono (N s : ℕ) : Monotone (divPt N s) :=
  monotone_nat_of_le_succ fun i => by rw [divPt_succ]; exact Nat.le_add_right _ _

theorem arraySplit_eq {α : Type*} (l : List α) {n : ℤ} (hn : 0 < n) :
    arraySplit l n = some ((List.range n.toNat).map fun i =>
      (l.take (divPt l.length n.toNat (i + 1))).drop (divPt l.length n.toNat i)) := by
  unfold arraySplit
  rw [if_neg (not_le.2 hn)]
  congr 1
  refine List.map_congr_left fun i hi => ?_
  have hi := List.mem_range.1 hi
  dsimp only
  rw [divPoints_getD (by omega) (by omega), divPoints_getD (by omega) (by omega)]
  rfl

theorem flatten_slices {α : Type*} (l : List α) (d : ℕ → ℕ) (hd : Monotone d) (n : ℕ) :
    ((List.range n).map fun i => (l.take (d (i + 1))).drop (d i)).flatten
      = (l.take (d n)).drop (d 0) := by
  induction n with
  | zero => simp [List.drop_take]
  | succ n ih =>
    rw [List.range_succ, List.map_append, List.flatten_append, ih]
    simp only [List.map_cons, List.map_nil, List.flatten_cons, List.flatten_nil, List.append_nil]
    have h1 := hd (Nat.zero_le n)
    have h2 : d n ≤ d (n + 1) := hd (Nat.le_succ n)
    simp only [List.drop_take]
    have : d (n + 1) - d 0 = (d n - d 0) + (d (n + 1) - d n) := by omega
    rw [this, List.take_add, List.drop_drop]
    congr 3; omega

/-- **C14.**  For any list and any positive number of processes there are exactly that many folds,
concatenated they are the original list, and their sizes differ by at most one (larger folds
first). -/
theorem C14_split {α : Type*} (l : List α) (n : ℤ) (hn : 0 < n) :
    ∃ folds, arraySplit l n = some folds ∧ folds.length = n ∧ folds.flatten = l ∧
      (∀ a ∈ folds, ∀ b ∈ folds, a.length ≤ b.length + 1) ∧
      folds.Pairwise fun a b => b.length ≤ a.length := by
  obtain ⟨s, rfl⟩ : ∃ s : ℕ, n = s := ⟨n.toNat, by omega⟩
  have hs : 0 < s := by omega
  have hlen : ∀ i < s, ((l.take (divPt l.length s (i + 1))).drop (divPt l.length s i)).length
      = l.length / s + if i < l.length % s then 1 else 0 := by
    intro i hi
    have := divPt_mono l.length s (show i + 1 ≤ s by omega)
    rw [divPt_last hs] at this
    rw [List.length_drop, List.length_take, min_eq_left this, divPt_succ]
    exact Nat.add_sub_cancel_left _ _
  refine ⟨_, arraySplit_eq l hn, by simp, ?_, ?_, ?_⟩
  · rw [flatten_slices _ _ (divPt_mono _ _), Int.toNat_natCast, divPt_last hs, divPt_zero]; simp
  · simp only [List.mem_map, List.mem_range, Int.toNat_natCast]
    rintro _ ⟨i, hi, rfl⟩ _ ⟨j, hj, rfl⟩
    rw [hlen i hi, hlen j hj]
    split_ifs <;> omega
  · rw [List.pairwise_map, Int.toNat_natCast]
    refine List.Pairwise.imp_of_mem ?_ List.pairwise_lt_range
    intro i j hi hj hij
    rw [hlen i (List.mem_range.1 hi), hlen j (List.mem_range.1 hj)]
    split_ifs <;> omega

/-- **C14.**  Zero or fewer processes are refused. -/
theorem C14_refused {α : Type*} (l : List α) (n : ℤ) : arraySplit l n = none ↔ n ≤ 0 := by
  unfold arraySplit; split_ifs <;> simp_all

/-- **C14.**  Alignment: splitting two time series of the same length and pairing the folds is the
same as splitting the series of pairs.  So entries with the same position in folds with the same
number belong to the same time step. -/
theorem C14_aligned {α β : Type*} (l : List α) (m : List β) (hlm : l.length = m.length) (n : ℤ)
    (fl : List (List α)) (fm : List (List β)) (hl : arraySplit l n = some fl)
    (hm : arraySplit m n = some fm) :
    arraySplit (l.zip m) n = some (List.zipWith List.zip fl fm) := by
  have hn : 0 < n := by
    by_contra h
    rw [(C14_refused l n).2 (not_lt.1 h)] at hl; cases hl
  rw [arraySplit_eq _ hn] at hl hm ⊢
  simp only [Option.some.injEq] at hl hm
  subst hl hm
  rw [List.zipWith_map, List.zipWith_self]
  simp only [List.length_zip, hlm, min_self, Option.some.injEq]
  refine List.map_congr_left fun i _ => ?_
  simp only [List.zip, List.take_zipWith, List.drop_zipWith]

/-- C14 in a case with a remainder, and one with more processes than time steps. -/
theorem C14_demo : arraySplit [10, 11, 12, 13, 14, 15, 16] 3
      = some [[10, 11, 12], [13, 14], [15, 16]] ∧
    arraySplit [10, 11] 3 = some [[10], [11], []] := by
  constructor <;> rfl

/-! ## C40 -/

/-- The values that the reports `rs` hold under a key, one after the other. -/
def valuesOf (rs : List Report) (k : String) : List ℝ :=
  rs.flatMap fun o => (o.lookup k).getD []

open Classical in
theorem mergeInto_eq (r o : Report) : mergeInto r o =
    if ∀ e ∈ r, (o.lookup e.1).isSome then
      some (r.map fun e => (e.1, e.2 ++ (o.lookup e.1).getD [])) else none := by
  unfold mergeInto
  induction r with
  | nil => simp
  | cons e r ih =>
    rw [List.mapM_cons, ih]
    cases h : o.lookup e.1 with
    | none =>
      have hn : ¬ ∀ e' ∈ e :: r, (o.lookup e'.1).isSome := by
        intro h'
        have := h' e List.mem_cons_self
        rw [h] at this; cases this
      rw [if_neg hn]
      rfl
    | some x =>
      simp only [List.mem_cons, forall_eq_or_imp, h, Option.isSome_some, true_and, Option.map_some,
        List.map_cons, Option.getD_some]
      split_ifs <;> rfl

open Classical in
theorem mergeReports_eq (r : Report) (rs : List Report) : mergeReports (r :: rs) =
    if ∀ o ∈ rs, ∀ e ∈ r, (o.lookup e.1).isSome then
      some (r.map fun e => (e.1, e.2 ++ valuesOf rs e.1)) else none := by
  change rs.foldlM mergeInto r = _
  induction rs generalizing r with
  | nil => simp [valuesOf]
  | cons o rs ih =>
    rw [List.foldlM_cons, mergeInto_eq]
    by_cases h : ∀ e ∈ r, (o.lookup e.1).isSome
    · rw [if_pos h]
      simp only [Option.bind_eq_bind, Option.bind_some]
      rw [ih]
      simp only [List.mem_map, forall_exists_index, and_imp, forall_apply_eq_imp_iff₂,
        List.mem_cons, forall_eq_or_imp, List.map_map]
      have hc : (∀ o ∈ rs, ∀ e ∈ r, (o.lookup e.1).isSome = true) ↔
          (∀ e ∈ r, (o.lookup e.1).isSome = true) ∧
            ∀ o ∈ rs, ∀ e ∈ r, (o.lookup e.1).isSome = true :=
        ⟨fun h' => ⟨h, h'⟩, fun h' => h'.2⟩
      rw [if_congr hc rfl rfl]
      congr 2
      refine List.map_congr_left fun e _ => ?_
      simp [valuesOf]
    · rw [if_neg h, if_neg]
      · rfl
      · intro h'; exact h (h' o List.mem_cons_self)

theorem lookup_map_snd (r : Report) (g : String → List ℝ → List ℝ) (k : String) :
    (r.map fun e => (e.1, g e.1 e.2)).lookup k = (r.lookup k).map (g k) := by
  induction r with
  | nil => rfl
  | cons e r ih =>
    obtain ⟨k', x⟩ := e
    simp only [List.map_cons, List.lookup_cons, ih]
    by_cases h : k = k'
    · subst h; simp
    · have : (k == k') = false := by simp [h]
      rw [this]

theorem lookup_isSome (r : Report) (k : String) :
    (r.lookup k).isSome ↔ k ∈ r.map Prod.fst := by
  induction r with
  | nil => simp
  | cons e r ih =>
    obtain ⟨k', x⟩ := e
    simp only [List.map_cons, List.lookup_cons, List.mem_cons]
    by_cases h : k = k'
    · subst h; simp
    · have : (k == k') = false := by simp [h]
      rw [this]
      simp only [ih, h, false_or]

/-- **C40.**  If every report has the keys of the first one, merging gives a report with exactly
these keys in the same order, and under every key the values of all reports one after the other. -/
theorem C40_concatenation (r : Report) (rs : List Report)
    (h : ∀ o ∈ rs, ∀ k ∈ r.map Prod.fst, k ∈ o.map Prod.fst) :
    ∃ m, mergeReports (r :: rs) = some m ∧ m.map Prod.fst = r.map Prod.fst ∧
      ∀ k ∈ r.map Prod.fst, ∃ vs : List (List ℝ),
        List.Forall₂ (fun o v => List.lookup k o = some v) (r :: rs) vs ∧
        m.lookup k = some vs.flatten := by
  classical
  refine ⟨_, by
    rw [mergeReports_eq, if_pos]
    intro o ho e he
    exact (lookup_isSome _ _).2 (h o ho _ (List.mem_map_of_mem he)), by simp [Function.comp_def], ?_⟩
  intro k hk
  refine ⟨(r :: rs).map fun o => (o.lookup k).getD [], ?_, ?_⟩
  · rw [List.forall₂_map_right_iff, List.forall₂_same]
    intro o ho
    have : (o.lookup k).isSome := by
      rw [lookup_isSome]
      rcases List.mem_cons.1 ho with rfl | ho
      · exact hk
      · exact h o ho k hk
    obtain ⟨x, hx⟩ := Option.isSome_iff_exists.1 this
    simp [hx]
  · rw [lookup_map_snd r fun k v => v ++ valuesOf rs k]
    obtain ⟨x, hx⟩ := Option.isSome_iff_exists.1 ((lookup_isSome _ _).2 hk)
    simp [hx, valuesOf, List.flatMap]

/-- **C40.**  Merging raises an exception exactly if there is no report or some report lacks a key
of the first one. -/
theorem C40_error (l : List Report) : mergeReports l = none ↔
    l = [] ∨ ∃ r rs, l = r :: rs ∧ ∃ o ∈ rs, ∃ k ∈ r.map Prod.fst, k ∉ o.map Prod.fst := by
  classical
  cases l with
  | nil => simp [mergeReports]
  | cons r rs =>
    rw [mergeReports_eq]
    simp only [← lookup_isSome]
    simp only [ite_eq_right_iff, reduceCtorEq, imp_false, false_or, List.cons.injEq, List.mem_map]
    constructor
    · intro h
      push Not at h
      obtain ⟨o, ho, e, he, hn⟩ := h
      exact ⟨r, rs, ⟨rfl, rfl⟩, o, ho, e.1, by
        rw [lookup_isSome]; exact List.mem_map_of_mem he, by simpa using hn⟩
    · rintro ⟨_, _, ⟨rfl, rfl⟩, o, ho, k, hk, hn⟩ h
      rw [lookup_isSome] at hk
      obtain ⟨e, he, rfl⟩ := List.mem_map.1 hk
      exact hn (h o ho e he)

/-- **C40.**  Merging is associative: merging two merged parts gives what merging everything at
once gives. -/
theorem C40_associative (l₁ l₂ : List Report) (m₁ m₂ : Report) (h₁ : mergeReports l₁ = some m₁)
    (h₂ : mergeReports l₂ = some m₂) : mergeReports [m₁, m₂] = mergeReports (l₁ ++ l₂) := by
  classical
  cases l₁ with
  | nil => simp [mergeReports] at h₁
  | cons r rs =>
    cases l₂ with
    | nil => simp [mergeReports] at h₂
    | cons r' rs' =>
      rw [mergeReports_eq] at h₁ h₂
      split_ifs at h₁ h₂ with a₁ a₂
      simp only [Option.some.injEq] at h₁ h₂
      subst h₁ h₂
      rw [List.cons_append, mergeReports_eq, mergeReports_eq]
      have e2 := fun k => lookup_map_snd r' (fun k v => v ++ valuesOf rs' k) k
      simp only [List.mem_cons, List.not_mem_nil, or_false, forall_eq, List.mem_map,
        forall_exists_index, and_imp, forall_apply_eq_imp_iff₂, e2, Option.isSome_map,
        List.mem_append, List.map_map]
      have hiff : (∀ e ∈ r, (r'.lookup e.1).isSome = true) ↔
          ∀ o, (o ∈ rs ∨ o = r' ∨ o ∈ rs') → ∀ e ∈ r, (o.lookup e.1).isSome = true := by
        constructor
        · rintro h o (ho | rfl | ho) e he
          · exact a₁ o ho e he
          · exact h e he
          · have := (lookup_isSome _ _).1 (h e he)
            obtain ⟨e', he', hk⟩ := List.mem_map.1 this
            rw [← hk]; exact a₂ o ho e' he'
        · intro h e he; exact h r' (Or.inr (Or.inl rfl)) e he
      rw [if_congr hiff rfl rfl]
      split_ifs with h
      · simp only [Option.some.injEq]
        refine List.map_congr_left fun e he => ?_
        obtain ⟨x, hx⟩ := Option.isSome_iff_exists.1 (h r' (Or.inr (Or.inl rfl)) e he)
        have := e2 e.1
        rw [hx] at this
        simp only [Function.comp_apply, Prod.mk.injEq, true_and]
        rw [List.append_assoc]
        congr 1
        have v1 : ∀ (a b : List Report) k, valuesOf (a ++ b) k = valuesOf a k ++ valuesOf b k := by
          intro a b k; simp [valuesOf]
        have v2 : ∀ (a : Report) (b : List Report) k,
            valuesOf (a :: b) k = (a.lookup k).getD [] ++ valuesOf b k := by
          intro a b k; simp [valuesOf]
        rw [v1, v2, v2, this, hx]
        simp [valuesOf]
      · rfl

/-- **C40.**  Under every key, the number of entries of the merged report is the sum of the numbers
of entries of the reports. -/
theorem C40_entries (l : List Report) (m : Report) (h : mergeReports l = some m) (k : String)
    (hk : k ∈ m.map Prod.fst) :
    ((m.lookup k).getD []).length = (l.map fun o => ((o.lookup k).getD []).length).sum := by
  classical
  cases l with
  | nil => simp [mergeReports] at h
  | cons r rs =>
    rw [mergeReports_eq] at h
    split_ifs at h
    simp only [Option.some.injEq] at h
    subst h
    rw [lookup_map_snd r fun k v => v ++ valuesOf rs k]
    have hk' : k ∈ r.map Prod.fst := by simpa [Function.comp_def] using hk
    obtain ⟨x, hx⟩ := Option.isSome_iff_exists.1 ((lookup_isSome _ _).2 hk')
    simp [hx, valuesOf, List.length_flatMap]

/-- C40 on three reports with two keys, in a different order in the last one. -/
theorem C40_demo : mergeReports
    [[("a", [1, 2]), ("b", [3, 4])], [("a", []), ("b", [])], [("b", [6]), ("a", [5])]]
      = some [("a", [1, 2, 5]), ("b", [3, 4, 6])] := by
  classical
  rw [mergeReports_eq]
  simp [valuesOf, List.lookup]

end PVF
