/-
Loops that fill tables give the nested lists of the cells.
-/
import Verif.Model.Tables
import Verif.Lemmas.Statistical
import Verif.Lemmas.ClassSelect

namespace Verif.Stat

section
variable {A X V : Type}

theorem pyGet_nat {a : List A} {i : Nat} (h : i < a.length) : pyGet a (i : Int) = .ok a[i] := by
  unfold pyGet
  simp [h]

theorem pySet_lt {a : List A} {i : Nat} (h : i < a.length) (x : A) : pySet a (i : Int) x = .ok (a.set i x) := by
  unfold pySet
  simp [h]

theorem atIndex_lt {a : List A} {i : Nat} (h : i < a.length) (f : A → Except PyErr A) : atIndex i f a = (f a[i]).map (fun r => a.set i r) := by
  unfold atIndex
  rw [pyGet_nat h]
  show (Bind.bind (m := Except PyErr) (f a[i]) _) = _
  cases f a[i] with
  | error e => rfl
  | ok r => exact pySet_lt h r

/-- A loop whose steps change one part of an array is a loop on this part. -/
theorem foldlM_lens {i : Nat} {step : List A → X → Except PyErr (List A)} {inner : A → X → Except PyErr A}
    (h : ∀ (a : List A) x (hi : i < a.length), step a x = (inner a[i] x).map (fun r => a.set i r)) :
    ∀ (xs : List X) (a : List A) (hi : i < a.length), xs.foldlM step a = (xs.foldlM inner a[i]).map (fun r => a.set i r)
  | [], a, hi => by
    show Except.ok a = Except.ok (a.set i a[i])
    rw [List.set_getElem_self]
  | x :: xs, a, hi => by
    rw [List.foldlM_cons, List.foldlM_cons, h a x hi]
    cases hr : inner a[i] x with
    | error e => rfl
    | ok r =>
      show xs.foldlM step (a.set i r) = (xs.foldlM inner r).map _
      rw [foldlM_lens h xs (a.set i r) (by simpa using hi)]
      simp

/-- A loop that writes the results for the elements one after the other into an array of initial values. -/
theorem foldlM_table {z : A} {step : List A → X × Nat → Except PyErr (List A)} {G : X → Nat → Except PyErr A} :
    ∀ (xs : List X) (pre : List A),
      (∀ (a : List A) x k, (x, k) ∈ xs.zipIdx pre.length → (hk : k < a.length) → a[k] = z → step a (x, k) = (G x k).map (fun r => a.set k r)) →
      (xs.zipIdx pre.length).foldlM step (pre ++ List.replicate xs.length z) = ((xs.zipIdx pre.length).mapM (fun x => G x.1 x.2)).map (fun r => pre ++ r)
  | [], pre, _ => by simp [Except.map, pure, Except.pure]
  | x :: xs, pre, h => by
    rw [List.zipIdx_cons, List.foldlM_cons, List.mapM_cons, List.length_cons, List.replicate_succ,
      h _ x pre.length (by simp) (by simp) (by simp)]
    cases hr : G x pre.length with
    | error e => rfl
    | ok r =>
      have ih := foldlM_table (z := z) (step := step) (G := G) xs (pre ++ [r]) (fun a x' k hk => h a x' k (by
        rw [List.length_append] at hk
        rw [List.zipIdx_cons]
        exact List.mem_cons_of_mem _ hk))
      rw [List.length_append, List.length_singleton, List.append_assoc] at ih
      show (xs.zipIdx (pre.length + 1)).foldlM step ((pre ++ z :: List.replicate xs.length z).set pre.length r) = _
      rw [List.set_append_right _ _ (le_refl _), Nat.sub_self, List.set_cons_zero]
      refine Eq.trans ih ?_
      show _ = Except.map _ (Bind.bind (m := Except PyErr) ((xs.zipIdx (pre.length + 1)).mapM (fun x => G x.1 x.2)) _)
      cases (xs.zipIdx (pre.length + 1)).mapM (fun x => G x.1 x.2) with
      | error e => rfl
      | ok l =>
        show Except.ok _ = Except.ok _
        simp

theorem foldlM_table0 {z : A} {step : List A → X × Nat → Except PyErr (List A)} {G : X → Nat → Except PyErr A} (xs : List X)
    (h : ∀ (a : List A) x k, (x, k) ∈ xs.zipIdx → (hk : k < a.length) → a[k] = z → step a (x, k) = (G x k).map (fun r => a.set k r)) :
    xs.zipIdx.foldlM step (List.replicate xs.length z) = xs.zipIdx.mapM (fun x => G x.1 x.2) := by
  have := foldlM_table (z := z) (step := step) (G := G) xs [] h
  simp only [List.length_nil, List.nil_append] at this
  rw [this]
  cases xs.zipIdx.mapM (fun x => G x.1 x.2) <;> rfl

theorem mapM_zipIdx_fst (f : X → Except PyErr A) : ∀ (xs : List X) (n : Nat), (xs.zipIdx n).mapM (fun x => f x.1) = xs.mapM f
  | [], _ => rfl
  | x :: xs, n => by
    rw [List.zipIdx_cons, List.mapM_cons, List.mapM_cons, mapM_zipIdx_fst f xs]

theorem foldlM_table1 {z : A} {step : List A → X × Nat → Except PyErr (List A)} {G : X → Except PyErr A} (xs : List X)
    (h : ∀ (a : List A) x k, (x, k) ∈ xs.zipIdx → (hk : k < a.length) → a[k] = z → step a (x, k) = (G x).map (fun r => a.set k r)) :
    xs.zipIdx.foldlM step (List.replicate xs.length z) = xs.mapM G := by
  rw [foldlM_table0 (G := fun x _ => G x) xs h]
  exact mapM_zipIdx_fst G xs 0

theorem map_bind' {B C : Type} (e : Except PyErr A) (f : A → Except PyErr B) (g : B → C) :
    (e >>= fun x => (f x).map g) = (e >>= f).map g := by
  cases e <;> rfl

end

section Perf
variable {D M S V : Type}

theorem modelPerformance_eq (store : V → V) (zero : V) (score : M → D → Except PyErr (List S)) (datasets : List D) (models : List M)
    (metrics : List (D → List S → Except PyErr V)) :
    modelPerformance store zero score datasets models metrics = datasets.mapM (fun d => models.mapM (fun m => do
      let yPred ← score m d
      metrics.mapM (fun f => (f d yPred).map store))) := by
  unfold modelPerformance
  apply foldlM_table1
  intro a d i _ hi hz
  rw [foldlM_lens (inner := fun b (mi : M × Nat) => do
      let yPred ← score mi.1 d
      metrics.zipIdx.foldlM (fun b fi => do
        let v ← fi.1 d yPred
        atIndex mi.2 (fun row => pySet row (fi.2 : Int) (store v)) b) b) _ _ _ hi, hz]
  · congr 1
    unfold zeros2
    apply foldlM_table1
    intro b m j _ hj hz
    show (do
      let yPred ← score m d
      metrics.zipIdx.foldlM _ b) = _
    rw [← map_bind']
    congr 1
    funext yPred
    rw [foldlM_lens (inner := fun row (fi : (D → List S → Except PyErr V) × Nat) => do
        let v ← fi.1 d yPred
        pySet row (fi.2 : Int) (store v)) _ _ _ hj, hz]
    · congr 1
      apply foldlM_table1
      intro row f k _ hk _
      show (Bind.bind (m := Except PyErr) (f d yPred) _) = _
      cases f d yPred with
      | error e => rfl
      | ok v => exact pySet_lt hk _
    · intro b fi hj
      show (Bind.bind (m := Except PyErr) (fi.1 d yPred) _) = Except.map _ (Bind.bind (m := Except PyErr) (fi.1 d yPred) _)
      cases fi.1 d yPred with
      | error e => rfl
      | ok v => exact atIndex_lt hj _
  · intro a mi hi
    show (Bind.bind (m := Except PyErr) (score mi.1 d) _) = Except.map _ (Bind.bind (m := Except PyErr) (score mi.1 d) _)
    rw [← map_bind']
    congr 1
    funext yPred
    rw [foldlM_lens _ _ _ hi]
    intro a fi hi
    show (Bind.bind (m := Except PyErr) (fi.1 d yPred) _) = Except.map _ (Bind.bind (m := Except PyErr) (fi.1 d yPred) _)
    cases fi.1 d yPred with
    | error e => rfl
    | ok v => exact atIndex_lt hi _

end Perf

section Sig
variable {D M S K : Type} [Field K] [LinearOrder K]

theorem significance_eq (score : M → D → Except PyErr (List S)) (datasets : List D) (modelA modelB : M)
    (metrics : List (D → List S → Except PyErr (List (Option K)))) (draws : Nat → Nat → List (List Bool)) :
    significance score datasets modelA modelB metrics draws = datasets.zipIdx.mapM (fun di => do
      let yA ← score modelA di.1
      let yB ← score modelB di.1
      metrics.zipIdx.mapM (fun fi => do
        let a ← fi.1 di.1 yA
        let b ← fi.1 di.1 yB
        randomizationNaN a b (draws di.2 fi.2))) := by
  unfold significance zeros2
  rw [foldlM_table0 (G := fun d i => do
      let yA ← score modelA d
      let yB ← score modelB d
      metrics.zipIdx.mapM (fun fi => do
        let a ← fi.1 d yA
        let b ← fi.1 d yB
        randomizationNaN a b (draws i fi.2)))]
  intro t d i _ hi hz
  show (Bind.bind (m := Except PyErr) (score modelA d) _) = Except.map _ (Bind.bind (m := Except PyErr) (score modelA d) _)
  rw [← map_bind']
  congr 1
  funext yA
  show (Bind.bind (m := Except PyErr) (score modelB d) _) = Except.map _ (Bind.bind (m := Except PyErr) (score modelB d) _)
  rw [← map_bind']
  congr 1
  funext yB
  rw [foldlM_lens (inner := fun row (fi : (D → List S → Except PyErr (List (Option K))) × Nat) => do
        let a ← fi.1 d yA
        let b ← fi.1 d yB
        let p ← randomizationNaN a b (draws i fi.2)
        pySet row (fi.2 : Int) p) _ _ _ hi, hz]
  · congr 1
    rw [foldlM_table0 (G := fun f j => do
        let a ← f d yA
        let b ← f d yB
        randomizationNaN a b (draws i j))]
    intro row f j _ hj _
    show (Bind.bind (m := Except PyErr) (f d yA) _) = Except.map _ (Bind.bind (m := Except PyErr) (f d yA) _)
    cases f d yA with
    | error e => rfl
    | ok a =>
      show (Bind.bind (m := Except PyErr) (f d yB) _) = Except.map _ (Bind.bind (m := Except PyErr) (f d yB) _)
      cases f d yB with
      | error e => rfl
      | ok b =>
        show (Bind.bind (m := Except PyErr) (randomizationNaN a b (draws i j)) _) = Except.map _ (randomizationNaN a b (draws i j))
        cases randomizationNaN a b (draws i j) with
        | error e => rfl
        | ok p => exact pySet_lt hj _
  · intro t fi hi
    show (Bind.bind (m := Except PyErr) (fi.1 d yA) _) = Except.map _ (Bind.bind (m := Except PyErr) (fi.1 d yA) _)
    cases fi.1 d yA with
    | error e => rfl
    | ok a =>
      show (Bind.bind (m := Except PyErr) (fi.1 d yB) _) = Except.map _ (Bind.bind (m := Except PyErr) (fi.1 d yB) _)
      cases fi.1 d yB with
      | error e => rfl
      | ok b =>
        show (Bind.bind (m := Except PyErr) (randomizationNaN a b (draws i fi.2)) _) = Except.map _ (Bind.bind (m := Except PyErr) (randomizationNaN a b (draws i fi.2)) _)
        cases randomizationNaN a b (draws i fi.2) with
        | error e => rfl
        | ok p => exact atIndex_lt hi _

end Sig

section Bias
variable {D A F V : Type}

/-- Writing a column. -/
theorem foldlM_column {cell : F → Except PyErr V} {g : F → V} (j : Nat) :
    ∀ (fs : List F) (pre rest : List (List V)), rest.length = fs.length → (∀ r ∈ rest, j < r.length) → (∀ f ∈ fs, cell f = .ok (g f)) →
      (fs.zipIdx pre.length).foldlM (fun b fi => do
        let v ← cell fi.1
        atIndex fi.2 (fun row => pySet row (j : Int) v) b) (pre ++ rest) = .ok (pre ++ List.zipWith (fun f r => r.set j (g f)) fs rest)
  | [], pre, rest, hl, _, _ => by
    rw [List.length_nil, List.length_eq_zero_iff] at hl
    subst hl
    rfl
  | f :: fs, pre, r :: rest, hl, hr, hc => by
    rw [List.zipIdx_cons, List.foldlM_cons, hc f (by simp)]
    show (Bind.bind (m := Except PyErr) (atIndex pre.length (fun row => pySet row (j : Int) (g f)) (pre ++ r :: rest)) _) = _
    rw [atIndex_lt (by simp)]
    have e : (pre ++ r :: rest)[pre.length]'(by simp) = r := by simp
    rw [e, pySet_lt (hr r (by simp))]
    show (fs.zipIdx (pre.length + 1)).foldlM _ ((pre ++ r :: rest).set pre.length (r.set j (g f))) = _
    rw [List.set_append_right _ _ (le_refl _), Nat.sub_self, List.set_cons_zero]
    have ih := foldlM_column (cell := cell) (g := g) j fs (pre ++ [r.set j (g f)]) rest (by simpa using hl)
      (fun r' hr' => hr r' (by simp [hr'])) (fun f' hf' => hc f' (by simp [hf']))
    rw [List.length_append, List.length_singleton, List.append_assoc, List.append_assoc] at ih
    exact ih

/-- Column after column. -/
theorem foldlM_columns {cell : A → F → Except PyErr V} {g : A → F → V} (zero : V) (fs : List F) :
    ∀ (as : List A) (pre : F → List V) (n : Nat), (∀ f ∈ fs, (pre f).length = n) → (∀ a ∈ as, ∀ f ∈ fs, cell a f = .ok (g a f)) →
      (as.zipIdx n).foldlM (fun b ai => fs.zipIdx.foldlM (fun b fi => do
        let v ← cell ai.1 fi.1
        atIndex fi.2 (fun row => pySet row (ai.2 : Int) v) b) b) (fs.map (fun f => pre f ++ List.replicate as.length zero)) =
      .ok (fs.map (fun f => pre f ++ as.map (fun a => g a f)))
  | [], pre, n, _, _ => by simp [pure, Except.pure]
  | a :: as, pre, n, hp, hc => by
    rw [List.zipIdx_cons, List.foldlM_cons]
    have h1 := foldlM_column (cell := cell a) (g := g a) n fs [] (fs.map (fun f => pre f ++ List.replicate (a :: as).length zero)) (by simp)
      (by
        intro r hr
        obtain ⟨f, hf, rfl⟩ := List.mem_map.1 hr
        simp [hp f hf])
      (fun f hf => hc a (by simp) f hf)
    simp only [List.length_nil, List.nil_append] at h1
    rw [h1]
    have e : List.zipWith (fun f r => r.set n (g a f)) fs (fs.map (fun f => pre f ++ List.replicate (a :: as).length zero)) =
        fs.map (fun f => (pre f ++ [g a f]) ++ List.replicate as.length zero) := by
      rw [List.zipWith_map_right, List.zipWith_self]
      apply List.map_congr_left
      intro f hf
      rw [List.set_append_right _ _ (by rw [hp f hf]), hp f hf, Nat.sub_self, List.length_cons, List.replicate_succ, List.set_cons_zero]
      simp
    rw [e]
    have ih := foldlM_columns (cell := cell) (g := g) zero fs as (fun f => pre f ++ [g a f]) (n + 1) (by intro f hf; simp [hp f hf])
      (fun a' ha' => hc a' (by simp [ha']))
    refine Eq.trans ih ?_
    simp

theorem biasVarianceTable_eq (zero : V) {cell : D → A → F → Except PyErr V} {g : D → A → F → V} {datasets : List D} {algos : List A} {metrics : List F}
    (hd : datasets ≠ []) (hm : metrics ≠ []) (hc : ∀ d ∈ datasets, ∀ a ∈ algos, ∀ f ∈ metrics, cell d a f = .ok (g d a f)) :
    biasVarianceTable zero cell datasets algos metrics = .ok (datasets.map (fun d => metrics.map (fun f => algos.map (fun a => g d a f)))) := by
  unfold biasVarianceTable
  rw [if_neg (by simp [hd, hm])]
  rw [foldlM_table1 (G := fun d => .ok (metrics.map (fun f => algos.map (fun a => g d a f))))]
  · exact mapM_ok_map (fun d _ => rfl)
  intro t d i hdi hi hz
  have hd' : d ∈ datasets := List.fst_mem_of_mem_zipIdx hdi
  rw [foldlM_lens (inner := fun b (ai : A × Nat) => metrics.zipIdx.foldlM (fun b fi => do
        let v ← cell d ai.1 fi.1
        atIndex fi.2 (fun row => pySet row (ai.2 : Int) v) b) b) _ _ _ hi, hz]
  · congr 1
    have := foldlM_columns (cell := cell d) (g := g d) zero metrics algos (fun _ => []) 0 (by simp) (hc d hd')
    simp only [List.nil_append] at this
    unfold zeros2
    rw [show List.replicate metrics.length (List.replicate algos.length zero) = metrics.map (fun _ => List.replicate algos.length zero) by simp]
    exact this
  · intro t ai hi
    rw [foldlM_lens _ _ _ hi]
    intro t fi hi
    show (Bind.bind (m := Except PyErr) (cell d ai.1 fi.1) _) = Except.map _ (Bind.bind (m := Except PyErr) (cell d ai.1 fi.1) _)
    cases cell d ai.1 fi.1 with
    | error e => rfl
    | ok v => exact atIndex_lt hi _

end Bias

section NaN
variable {K : Type} [Field K] [LinearOrder K]

theorem sumNaN_some (xs : List K) : sumNaN (xs.map some) = some xs.sum := by
  induction xs with
  | nil => rfl
  | cons x xs ih => rw [List.map_cons, sumNaN, List.foldr_cons, ← sumNaN, ih, List.sum_cons]; rfl

theorem sumNaN_none {xs : List (Option K)} (h : none ∈ xs) : sumNaN xs = none := by
  induction xs with
  | nil => simp at h
  | cons x xs ih =>
    rw [sumNaN, List.foldr_cons, ← sumNaN]
    rcases List.mem_cons.1 h with rfl | h
    · rfl
    · rw [ih h]
      cases x <;> rfl

theorem lift2_none_left (op : K → K → K) (x : Option K) : lift2 op none x = none := rfl

theorem lift2_none_right (op : K → K → K) (x : Option K) : lift2 op x none = none := by cases x <;> rfl

theorem avgNaN_none {xs : List (Option K)} (h : none ∈ xs) : avgNaN xs = none := by
  unfold avgNaN
  rw [sumNaN_none h]
  rfl

theorem avgNaN_some (xs : List K) : avgNaN (xs.map some) = some (npMean xs) := by
  unfold avgNaN npMean
  rw [sumNaN_some, List.length_map]
  rfl

theorem maskSelect_map {A B : Type} (f : A → B) (v : List A) (m : List Bool) : maskSelect (v.map f) m = (maskSelect v m).map f := by
  unfold maskSelect
  induction v generalizing m with
  | nil => simp
  | cons x v ih =>
    cases m with
    | nil => simp
    | cons b m =>
      have := ih m
      cases b <;> simp_all

theorem swapDeltaNaN_some (best worst : List K) (sel : List Bool) :
    swapDeltaNaN (best.map some) (worst.map some) sel = some (swapDelta best worst sel) := by
  unfold swapDeltaNaN swapDelta
  rw [maskSelect_map, maskSelect_map]
  simp only [sumNaN_some, List.length_map]
  rfl

theorem randStepNaN_some (best worst : List K) (d : K) (p : K × K) (sel : List Bool) :
    randStepNaN (best.map some) (worst.map some) (some d) p sel = randStep best worst d p sel := by
  unfold randStepNaN randStep
  rw [swapDeltaNaN_some]
  simp [cmp2]

theorem randomizationNaN_some (a b : List K) (sels : List (List Bool)) :
    randomizationNaN (a.map some) (b.map some) sels = randomization a b sels := by
  unfold randomizationNaN randomization
  simp only [List.length_map, avgNaN_some, List.map_eq_nil_iff]
  have e : cmp2 (fun x y => decide (x < y)) (some (npMean a)) (some (npMean b)) = decide (npMean a < npMean b) := rfl
  rw [e]
  by_cases h : npMean a < npMean b
  · simp only [h, decide_true, if_true, avgNaN_some]
    have : randStepNaN (b.map some) (a.map some) (lift2 (· - ·) (some (npMean b)) (some (npMean a))) =
        randStep b a (npMean b - npMean a) := by
      funext p sel
      exact randStepNaN_some b a _ p sel
    rw [this]
  · simp only [h, decide_false, if_false, avgNaN_some, Bool.false_eq_true]
    have : randStepNaN (a.map some) (b.map some) (lift2 (· - ·) (some (npMean a)) (some (npMean b))) =
        randStep a b (npMean a - npMean b) := by
      funext p sel
      exact randStepNaN_some a b _ p sel
    rw [this]

theorem randomizationNaN_nan {a b : List (Option K)} (hl : a.length = b.length) (h : none ∈ a ∨ none ∈ b) {sels : List (List Bool)} (hs : sels ≠ []) :
    randomizationNaN a b sels = .ok (0, 0) := by
  unfold randomizationNaN
  have hne : a ≠ [] := by
    rintro rfl
    rw [List.length_nil, eq_comm, List.length_eq_zero_iff] at hl
    subst hl
    simp at h
  rw [if_neg hs, if_neg (by simpa using hl), if_neg hne]
  have e : cmp2 (fun x y => decide (x < y)) (avgNaN a) (avgNaN b) = false := by
    rcases h with h | h
    · rw [avgNaN_none h]; rfl
    · rw [avgNaN_none h]; cases avgNaN a <;> rfl
  have d : lift2 (· - ·) (avgNaN a) (avgNaN b) = none := by
    rcases h with h | h
    · rw [avgNaN_none h]; rfl
    · rw [avgNaN_none h, lift2_none_right]
  simp only [e, Bool.false_eq_true, if_false, d]
  have st : ∀ p sel, randStepNaN a b none p sel = p := by
    intro p sel
    unfold randStepNaN
    have c : ∀ r x, cmp2 (K := K) r x none = false := fun r x => by cases x <;> rfl
    simp [c]
  have : ∀ l : List (List Bool), l.foldl (randStepNaN a b none) (0, 0) = (0, 0) := by
    intro l
    induction l with
    | nil => rfl
    | cons x l ih => rw [List.foldl_cons, st, ih]
  rw [this]
  simp

end NaN

end Verif.Stat
