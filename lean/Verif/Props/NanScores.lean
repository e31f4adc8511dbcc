/-
Property C109: predictions that are NaN. `⊤` stands for NaN; `S` is any linear order of numbers.
-/
import Verif.Model.NanScores
import Verif.Props.MetricsOrder
import Verif.Props.Eval
import Verif.Props.RankCorr

namespace Verif.Props.NanScores
open Spec Metrics _root_.Verif.NanScores

section order
variable {S : Type} [LinearOrder S] {sort : List (WithTop S) → List Nat} {sortY : List ℝ → List Nat} {s : List (WithTop S)}

/-- C109: the metrics look at the documents with prediction NaN first, in any order, and then at the others from the largest to the smallest
number. -/
theorem C109_first (hs : IsArgsort s (sort s)) :
    ∃ nans rest, topIdx sort none s = nans ++ rest ∧ (∀ i ∈ nans, s[i]? = some ⊤) ∧
      (∀ i, s[i]? = some ⊤ → i ∈ nans) ∧ (∀ i ∈ rest, ∃ v : S, s[i]? = some (v : WithTop S)) ∧
      rest.Pairwise (fun i j => ∀ v w : S, s[i]? = some (v : WithTop S) → s[j]? = some (w : WithTop S) → w ≤ v) := by
  have hlt : ∀ i ∈ (sort s).reverse, i < s.length := fun i hi =>
    (mem_range_of_isArgsort hs).1 (List.mem_reverse.1 hi)
  have hpw : (sort s).reverse.Pairwise (fun i j => ∀ a ∈ s[j]?, ∀ b ∈ s[i]?, a ≤ b) := by
    rw [List.pairwise_reverse]; exact hs.2
  have key : ∀ l : List Nat, (∀ i ∈ l, i < s.length) → l.Pairwise (fun i j => ∀ a ∈ s[j]?, ∀ b ∈ s[i]?, a ≤ b) →
      ∃ nans rest, l = nans ++ rest ∧ (∀ i ∈ nans, s[i]? = some ⊤) ∧
        (∀ i ∈ rest, ∃ v : S, s[i]? = some (v : WithTop S)) := by
    intro l
    induction l with
    | nil => intro _ _; exact ⟨[], [], rfl, by simp, by simp⟩
    | cons i l ih =>
      intro hb hp
      have hi : i < s.length := hb i (by simp)
      rw [List.pairwise_cons] at hp
      by_cases ht : s[i] = ⊤
      · obtain ⟨n, r, h1, h2, h3⟩ := ih (fun j hj => hb j (by simp [hj])) hp.2
        refine ⟨i :: n, r, by simp [h1], ?_, h3⟩
        intro j hj
        rcases List.mem_cons.1 hj with rfl | hj
        · rw [List.getElem?_eq_getElem hi, ht]
        · exact h2 j hj
      · refine ⟨[], i :: l, rfl, by simp, ?_⟩
        intro j hj
        have hjl : j < s.length := hb j hj
        have hle : s[j] ≠ ⊤ := by
          rcases List.mem_cons.1 hj with rfl | hj
          · exact ht
          · intro e
            have := hp.1 j hj s[j] (by simp [List.getElem?_eq_getElem hjl]) s[i] (by simp [List.getElem?_eq_getElem hi])
            rw [e, top_le_iff] at this
            exact ht this
        obtain ⟨v, hv⟩ := WithTop.ne_top_iff_exists.1 hle
        exact ⟨v, by rw [List.getElem?_eq_getElem hjl, hv]⟩
  obtain ⟨n, r, h1, h2, h3⟩ := key _ hlt hpw
  refine ⟨n, r, h1, h2, ?_, h3, ?_⟩
  · intro i hi
    have hil : i < s.length := by
      by_contra hc
      rw [List.getElem?_eq_none_iff.2 (by omega)] at hi
      cases hi
    have hm : i ∈ (sort s).reverse := List.mem_reverse.2 ((mem_range_of_isArgsort hs).2 hil)
    rw [h1, List.mem_append] at hm
    rcases hm with hm | hm
    · exact hm
    · obtain ⟨v, hv⟩ := h3 i hm
      rw [hv] at hi
      exact absurd (Option.some.inj hi) (by simp)
  · rw [h1, List.pairwise_append] at hpw
    refine hpw.2.1.imp ?_
    intro i j hij v w hv hw
    exact WithTop.coe_le_coe.1 (hij _ (by simp [hw]) _ (by simp [hv]))

/-- ... so every metric has the values it would have if NaN were one number larger than all predicted numbers. -/
theorem C109_as_largest {M : S} (hM : ∀ v : S, (v : WithTop S) ∈ s → v < M) (idx : List Nat) :
    (IsArgsort (s.map (·.untopD M)) idx ↔ IsArgsort s idx) ∧
    ∀ (c : Option Int) (m : RankMetric) (y : List ℝ),
      evalMetric (fun _ => idx) sortY c m y (s.map (·.untopD M)) = evalMetric (fun _ => idx) sortY c m y s := by
  have hf : ∀ a ∈ s, ∀ b ∈ s, (a.untopD M ≤ b.untopD M ↔ a ≤ b) := by
    intro a ha b hb
    induction a using WithTop.recTopCoe with
    | top =>
      induction b using WithTop.recTopCoe with
      | top => simp
      | coe b => simpa using hM b hb
    | coe a =>
      induction b using WithTop.recTopCoe with
      | top => simpa using (hM a ha).le
      | coe b => simp
  have hmem : ∀ (i : Nat) a, s[i]? = some a → a ∈ s := fun i a h => List.mem_of_getElem? h
  constructor
  · unfold IsArgsort
    rw [List.length_map]
    simp only [List.getElem?_map]
    constructor
    · rintro ⟨h1, h2⟩
      refine ⟨h1, h2.imp ?_⟩
      intro i j hij a ha b hb
      simp only [Option.mem_def] at ha hb hij
      exact (hf a (hmem i a ha) b (hmem j b hb)).1 (hij _ (by simp [ha]) _ (by simp [hb]))
    · rintro ⟨h1, h2⟩
      refine ⟨h1, h2.imp ?_⟩
      intro i j hij a ha b hb
      simp only [Option.mem_def, Option.map_eq_some_iff] at ha hb
      obtain ⟨a', ha', rfl⟩ := ha
      obtain ⟨b', hb', rfl⟩ := hb
      exact (hf a' (hmem i a' ha') b' (hmem j b' hb')).2 (hij a' ha' b' hb')
  · intro c m y
    cases m <;> rfl

/-- Non-vacuity of `C109_as_largest`: predictions 1, NaN, 5 and the larger number 6; one sorting result of both lists. -/
example : (∀ v : ℕ, (v : WithTop ℕ) ∈ [((1 : ℕ) : WithTop ℕ), ⊤, ((5 : ℕ) : WithTop ℕ)] → v < 6) ∧
    IsArgsort [((1 : ℕ) : WithTop ℕ), ⊤, ((5 : ℕ) : WithTop ℕ)] [0, 2, 1] ∧
    [((1 : ℕ) : WithTop ℕ), ⊤, ((5 : ℕ) : WithTop ℕ)].map (·.untopD 6) = [1, 6, 5] := by
  refine ⟨?_, ⟨by decide, by simp⟩, rfl⟩
  intro v hv
  rcases List.mem_cons.1 hv with h | hv
  · have : v = 1 := WithTop.coe_inj.1 h
    omega
  rcases List.mem_cons.1 hv with h | hv
  · exact absurd h (WithTop.coe_ne_top)
  · have : v = 5 := WithTop.coe_inj.1 (by simpa using hv)
    omega

/-- Without NaN the model is the one of the other properties. -/
theorem C109_numbers (t : List S) (idx : List Nat) :
    (IsArgsort (t.map ((↑) : S → WithTop S)) idx ↔ IsArgsort t idx) ∧
    ∀ (c : Option Int) (m : RankMetric) (y : List ℝ),
      evalMetric (fun _ => idx) sortY c m y (t.map ((↑) : S → WithTop S)) = evalMetric (fun _ => idx) sortY c m y t :=
  C26_monotone_transform_ties (f := ((↑) : S → WithTop S)) WithTop.coe_strictMono idx

end order

/-! ### The property fails -/

/-- The property "a document without a score is not ranked above a document with one" fails: labels 1, 0 and predictions NaN, 5 give Precision@1
= 1 with every sorting algorithm, and any number below 5 in place of NaN gives 0. -/
theorem C109_violated (idx idx' : List Nat) (h : IsArgsort [(⊤ : WithTop ℝ), (5 : ℝ)] idx) {v : ℝ} (hv : v < 5)
    (h' : IsArgsort [v, 5] idx') :
    Metrics.precision (fun _ => idx) (some 1) 1 [1, 0] [(⊤ : WithTop ℝ), (5 : ℝ)] = .ok (1 : ℝ) ∧
    Metrics.precision (fun _ => idx') (some 1) 1 [1, 0] [v, 5] = .ok (0 : ℝ) := by
  have e1 : idx = [1, 0] := by
    have hp := h.1
    have : idx = [0, 1] ∨ idx = [1, 0] := by
      have := List.perm_pair.1 (by simpa [List.range_succ] using hp : idx.Perm [0, 1])
      simpa using this
    rcases this with rfl | rfl
    · have := h.2
      simp at this
    · rfl
  have e2 : idx' = [0, 1] := by
    have hp := h'.1
    have : idx' = [0, 1] ∨ idx' = [1, 0] := by
      have := List.perm_pair.1 (by simpa [List.range_succ] using hp : idx'.Perm [0, 1])
      simpa using this
    rcases this with rfl | rfl
    · rfl
    · have := h'.2
      simp at this
      linarith
  subst e1 e2
  constructor
  · norm_num [Metrics.precision, topIdx, pyTake, gather, List.filterMap_cons]
  · norm_num [Metrics.precision, topIdx, pyTake, gather]

/-- Non-vacuity of `C109_violated`. -/
example : IsArgsort [(⊤ : WithTop ℝ), (5 : ℝ)] [1, 0] ∧ IsArgsort [(3 : ℝ), 5] [0, 1] := by
  refine ⟨⟨by decide, by simp⟩, ⟨by decide, by norm_num⟩⟩

/-! ### RMSE -/

section rmse
variable {sort : List (WithTop ℝ) → List Nat} {y : List ℝ} {s : List (WithTop ℝ)}

theorem nanSum_eq_none {l : List (Option ℝ)} : nanSum l = none ↔ none ∈ l := by
  induction l with
  | nil => simp [nanSum]
  | cons a l ih => cases a <;> simp [nanSum, ih]

theorem nanSum_some (l : List ℝ) : nanSum (l.map some) = some l.sum := by
  induction l with
  | nil => rfl
  | cons a l ih => simp [nanSum, ih]

theorem sqDiff_none {a : ℝ} {b : WithTop ℝ} : sqDiff a b = none ↔ b = ⊤ := by
  induction b using WithTop.recTopCoe with
  | top => simp [sqDiff]
  | coe b => simp [sqDiff]

theorem none_mem_zipWith : ∀ {a : List ℝ} {b : List (WithTop ℝ)}, a.length = b.length →
    (none ∈ List.zipWith sqDiff a b ↔ ⊤ ∈ b)
  | [], [], _ => by simp
  | x :: a, z :: b, h => by
    have ih := none_mem_zipWith (a := a) (b := b) (by simpa using h)
    have h1 : (none = sqDiff x z) ↔ (⊤ = z) := by rw [eq_comm, sqDiff_none, eq_comm]
    simp only [List.zipWith_cons_cons, List.mem_cons, ih, h1]

/-- RMSE of one query is NaN exactly if one of its predictions is NaN, with every cutoff except 0. -/
theorem C109_rmse_query (hs : IsArgsort s (sort s)) (h : y.length = s.length) {c : Option Nat} (hc : c ≠ some 0) :
    rmse sort (cut c) y s = none ↔ ⊤ ∈ s := by
  have hm : rmse sort (cut c) y s = none ↔ mse sort (cut c) y s = none := by simp [rmse]
  rw [hm]
  cases c with
  | none =>
    show nanSum (List.zipWith sqDiff y s) = none ↔ _
    rw [nanSum_eq_none, none_mem_zipWith h]
  | some k =>
    have hk : 0 < k := Nat.pos_of_ne_zero (fun e => hc (by rw [e]))
    show nanSum (List.zipWith sqDiff (gather y (topIdx sort (some (k : Int)) s)) (gather s (topIdx sort (some (k : Int)) s))) = none ↔ _
    have htop : topIdx sort (some (k : Int)) s = (topIdx sort none s).take k := by
      simp [topIdx, pyTake]
    have hlt : ∀ i ∈ topIdx sort (some (k : Int)) s, i < s.length := by
      intro i hi
      rw [htop] at hi
      exact (mem_range_of_isArgsort hs).1 (List.mem_reverse.1 (List.mem_of_mem_take hi))
    rw [nanSum_eq_none, none_mem_zipWith (by
      rw [length_gather _ _ (fun i hi => h ▸ hlt i hi), length_gather _ _ hlt])]
    constructor
    · intro hg
      obtain ⟨i, _, hi⟩ := List.mem_filterMap.1 hg
      exact List.mem_of_getElem? hi
    · intro ht
      obtain ⟨i, hi⟩ := List.getElem?_of_mem ht
      obtain ⟨n, r, h1, h2, h3, _⟩ := C109_first hs
      have hin := h3 i hi
      obtain ⟨j, n', rfl⟩ : ∃ j n', n = j :: n' := by
        cases n with
        | nil => simp at hin
        | cons j n' => exact ⟨j, n', rfl⟩
      refine List.mem_filterMap.2 ⟨j, ?_, h2 j (by simp)⟩
      rw [htop, h1]
      obtain ⟨k', rfl⟩ : ∃ k', k = k' + 1 := ⟨k - 1, by omega⟩
      simp

/-- ... and without NaN it is the number of C25. -/
theorem C109_rmse_numbers (t : List ℝ) (idx : List Nat) (c : Option Int) (y : List ℝ) :
    rmse (fun _ => idx) c y (t.map ((↑) : ℝ → WithTop ℝ)) = some (rmsePerQuery (fun _ => idx) c y t) := by
  have hz : ∀ a b : List ℝ, List.zipWith sqDiff a (b.map ((↑) : ℝ → WithTop ℝ)) =
      (List.zipWith (fun a b => (a - b) ^ 2) a b).map some := by
    intro a
    induction a with
    | nil => simp
    | cons x a ih =>
      intro b
      cases b with
      | nil => simp
      | cons z b => simp [ih b, sqDiff]
  have hg : ∀ l : List Nat, gather (t.map ((↑) : ℝ → WithTop ℝ)) l = (gather t l).map ((↑) : ℝ → WithTop ℝ) := by
    intro l
    simp [gather, List.map_filterMap]
  unfold rmse rmsePerQuery
  cases c with
  | none => simp only [mse, msePerQuery, hz, nanSum_some, Option.map_some]
  | some k =>
    have ht : topIdx (fun _ => idx) (some k) (t.map ((↑) : ℝ → WithTop ℝ)) = topIdx (fun _ => idx) (some k) t := rfl
    simp only [mse, msePerQuery, ht, hg, hz, nanSum_some, Option.map_some]

/-- Non-vacuity of `C109_rmse_query`. -/
example : IsArgsort [(⊤ : WithTop ℝ), (5 : ℝ)] [1, 0] ∧ (some 1 : Option Nat) ≠ some 0 :=
  ⟨⟨by decide, by simp⟩, by simp⟩

/-- C109, RMSE of a dataset: the average leaves out exactly the queries with a NaN prediction. `store` is the conversion to float32. -/
theorem C109_rmse_eval {R : Type} {X : List R} {nf : Nat} {ids : List Int} {d : Dataset R ℝ} {yPred : List (WithTop ℝ)}
    {store : Option ℝ → Option ℝ} (hst : ∀ v, store v = none ↔ v = none) (hsort : ∀ v, IsArgsort v (sort v))
    (h : mkDataset X nf y ids = .ok d) (hc : Contiguous ids) (hy : y.length = ids.length) (hp : yPred.length = ids.length)
    {c : Option Nat} (hcut : c ≠ some 0) :
    ∃ avg det, metricEval store (fun y s => .ok (rmse sort (cut c) y s)) d yPred = .ok (avg, det) ∧
      det.length = d.queryIds.length ∧
      (∀ (i : Nat) q, d.queryIds[i]? = some q → (det[i]? = some none ↔ ⊤ ∈ ofQuery q ids yPred)) ∧
      ((∃ q ∈ ids, ⊤ ∉ ofQuery q ids yPred) →
        avg = some ((det.filterMap id).sum / ((d.queryIds.filter (fun q => decide (⊤ ∉ ofQuery q ids yPred))).length : ℝ))) := by
  obtain ⟨⟨avg, det⟩, hr⟩ := C13_eval_succeeds (K := ℝ) (store := store)
    (evalQ := fun y s => .ok (rmse sort (cut c) y s)) h hc hy hp (fun q _ => ⟨_, rfl⟩)
  obtain ⟨h1, h2, h3, h4⟩ := C13_eval h hc hy hp hr
  have hq : ∀ q, (ofQuery q ids y).length = (ofQuery q ids yPred).length := by
    intro q
    rw [length_ofQuery q hy, length_ofQuery q hp]
  have hdet : ∀ (i : Nat) q, d.queryIds[i]? = some q → (det[i]? = some none ↔ ⊤ ∈ ofQuery q ids yPred) := by
    intro i q hi
    obtain ⟨v, hv, hd⟩ := h2 i q hi
    rw [hd]
    have : v = rmse sort (cut c) (ofQuery q ids y) (ofQuery q ids yPred) := by
      injection hv with hv; exact hv.symm
    rw [← C109_rmse_query (hsort _) (hq q) hcut, ← this, ← hst v]
    simp
  refine ⟨avg, det, hr, h1, hdet, ?_⟩
  rintro ⟨q, hqm, hqt⟩
  have hlen : (det.filterMap id).length = (d.queryIds.filter (fun q => decide (⊤ ∉ ofQuery q ids yPred))).length := by
    have gen : ∀ (D : List (Option ℝ)) (Q : List Int), D.length = Q.length →
        (∀ (i : Nat) q, Q[i]? = some q → (D[i]? = some none ↔ ⊤ ∈ ofQuery q ids yPred)) →
        (D.filterMap id).length = (Q.filter (fun q => decide (⊤ ∉ ofQuery q ids yPred))).length := by
      intro D
      induction D with
      | nil => intro Q hl _; cases Q with
        | nil => rfl
        | cons q Q => simp at hl
      | cons v D ih =>
        intro Q hl hi
        cases Q with
        | nil => simp at hl
        | cons q Q =>
          have ih' := ih Q (by simpa using hl) (fun i q hq => by simpa using hi (i + 1) q (by simpa using hq))
          have h0 := hi 0 q (by simp)
          cases v with
          | none =>
            have : ⊤ ∈ ofQuery q ids yPred := h0.1 (by simp)
            rw [List.filterMap_cons_none rfl, List.filter_cons_of_neg (by simpa using this), ih']
          | some v =>
            have : ⊤ ∉ ofQuery q ids yPred := fun hh => by simpa using h0.2 hh
            rw [List.filterMap_cons_some (f := id) (b := v) rfl, List.filter_cons_of_pos (by simpa using this), List.length_cons, List.length_cons, ih']
    exact gen det d.queryIds h1 hdet
  rw [← hlen]
  refine h4 ?_
  obtain ⟨i, hi⟩ := List.getElem?_of_mem ((built_of_mk h).mem_iff.2 hqm)
  have hil : i < det.length := by
    rw [h1]
    by_contra hcon
    rw [List.getElem?_eq_none_iff.2 (by omega)] at hi
    cases hi
  refine ⟨det[i], List.getElem_mem hil, fun hn => hqt ((hdet i q hi).1 ?_)⟩
  rw [List.getElem?_eq_getElem hil, hn]

/-- A perfect RMSE of 0 for a model that has no number at all for one of two queries. -/
theorem C109_rmse_violated :
    ∃ (d : Dataset Unit ℝ), mkDataset [(), ()] 0 [1, 7] [0, 1] = .ok d ∧
      metricEval (K := ℝ) id (fun y s => .ok (rmse sort none y s)) d [((1 : ℝ) : WithTop ℝ), ⊤] = .ok (some 0, [some 0, none]) := by
  refine ⟨⟨[(), ()], 0, [1, 7], [0, 1], [0, 1, 2]⟩, ?_, ?_⟩
  · rw [mkDataset]; simp [show npUnique [0, 1] = ([0, 1], [0, 1]) by decide +kernel,
      show argsortNat [0, 1] = [0, 1] by decide +kernel, gather]
  · simp [metricEval, evalLoop, queryIter, Dataset.queryIterator, slice, Dataset.nQueries, bind, Except.bind, pure, Except.pure, pySet,
      nanmean, List.replicate, rmse, mse, nanSum, sqDiff]

end rmse
end Verif.Props.NanScores
