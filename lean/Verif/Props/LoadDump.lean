/-
Properties C38, C39, C40: loading the text dumps of XGBoost and ScikitLearn.
-/
import Verif.Lemmas.LoadDump
import Verif.Props.Scoring

namespace Verif.Props
open Spec Ensemble

section
variable {F : Type}

/-- C35: loading with `n_trees` keeps the first trees of what the loader of the format has read, whatever the format; it changes neither the
learning rate nor the base score. Also the base score default of XGBoost. -/
theorem C35_loading {half : F} {format : Format} {load : F → Option F → Except PyErr (Loaded F)} {lr lr' : F}
    {bs bs' : Option F} {a : Ensemble F} {fo : Forest F}
    (hload : load lr (if format = .xgboost then some (bs.elim half id) else bs) = .ok ⟨a, lr', bs'⟩) (h : Represents a fo)
    (nTrees : Option Nat) :
    ∃ a', rtEnsemble half format load lr bs nTrees = .ok ⟨a', lr', bs'⟩ ∧
      Represents a' (fo.take (nTrees.elim fo.length id)) := by
  have hb : initialBase half format bs = if format = .xgboost then some (bs.elim half id) else bs := by
    cases bs <;> simp [initialBase]
  unfold rtEnsemble
  rw [hb, hload]
  cases nTrees with
  | none =>
    refine ⟨a, rfl, ?_⟩
    rw [Option.elim_none, List.take_of_length_le le_rfl]
    exact h
  | some n =>
    simp only [Option.elim_some, id_eq]
    by_cases hn : n < a.nTrees
    · obtain ⟨a', h3, h4⟩ := C35_prune h n
      refine ⟨a', ?_, h4⟩
      simp only [bind, Except.bind, pruneLoaded, if_pos hn, h3]
      rfl
    · refine ⟨a, ?_, ?_⟩
      · simp only [bind, Except.bind, pruneLoaded, if_neg hn]; rfl
      · rw [List.take_of_length_le (by rw [h.nTrees] at hn; omega)]
        exact h

/-- Loading the ensemble of C29's example with `n_trees=1` keeps its first tree, which is not the whole ensemble. -/
example : ∃ a', rtEnsemble 5 .lightGBM (fun lr bs => .ok ⟨ens0, lr, bs⟩) 1 none (some 1) = .ok ⟨a', 1, none⟩ ∧
    Represents a' (forest0.take 1) ∧ forest0.take 1 ≠ forest0 := by
  obtain ⟨a', h1, h2⟩ := C35_loading (half := (5 : ℚ)) (format := .lightGBM) (load := fun lr bs => .ok ⟨ens0, lr, bs⟩) (lr := 1) (bs := none)
    rfl ens0_represents (some 1)
  exact ⟨a', h1, h2, by decide +kernel⟩

end

section C38
variable {F : Type}

theorem dumpLoad_represents (cfg : DumpCfg F) (zero minusOne : F) {lines : List (DumpLine F)} {ts : List (LTree F)}
    (hlines : lines.filter relevant = forestDump 0 ts)
    (hids : ∀ t ∈ ts, GoodIds cfg t) (hf : ∀ t ∈ ts, SmallFeatures (t.toTree cfg.threshold)) (lr : F) (bs : Option F) :
    ∃ a, dumpLoad cfg zero minusOne lines lr bs = .ok ⟨a, lr, bs⟩ ∧ Represents a (dumpForest cfg ts) := by
  have hcount : dumpCount lines = ((dumpForest cfg ts).length, Forest.numNodes (dumpForest cfg ts)) := by
    rw [← dumpCount_other, hlines, count_forestDump cfg]
  obtain ⟨s', h1, h2, h3, h4⟩ := dump_forest cfg ts hids hf ts 0
    ⟨alloc zero minusOne (dumpForest cfg ts).length (Forest.numNodes (dumpForest cfg ts)), lr, bs, 0, 0, []⟩ rfl (by simp)
    (loadedTrees_alloc _ zero minusOne rfl rfl) rfl rfl
  refine ⟨s'.m, ?_, h2⟩
  unfold dumpLoad
  rw [hcount]
  simp only [foldlM_other cfg lines, hlines, h1, bind, Except.bind]
  simp only [pure, Except.pure, h3, h4]

/-- C38: for every list of trees with any node ids, loading their dump (possibly with unrelated lines in between) through the
constructor gives arrays that represent exactly these trees in this order, each with weight 1, thresholds converted by
`strictToLe`. Without an explicit base score it is 0.5. With `n_trees` only the first trees are kept. Features below 2^15. -/
theorem C38_load (zero one minusOne half : F) (strictToLe : F → F) {lines : List (DumpLine F)} {ts : List (LTree F)}
    (hlines : lines.filter relevant = forestDump 0 ts)
    (hf : ∀ t ∈ ts, ∀ f ∈ (t.toTree strictToLe).features, f < 2 ^ 15) (lr : F) (bs : Option F) (nTrees : Option Nat) :
    ∃ a, rtEnsemble half .xgboost (xgboostLoad zero one minusOne strictToLe lines) lr bs nTrees =
        .ok ⟨a, lr, some (bs.elim half id)⟩ ∧
      Represents a ((ts.map (fun t => (t.toTree strictToLe, one))).take (nTrees.elim ts.length id)) := by
  obtain ⟨a, h1, h2⟩ := dumpLoad_represents (F := F) ⟨false, strictToLe, false, one⟩ zero minusOne hlines
    (fun t _ h => by cases h) hf lr (some (bs.elim half id))
  have hload : xgboostLoad zero one minusOne strictToLe lines lr (some (bs.elim half id)) = .ok ⟨a, lr, some (bs.elim half id)⟩ := h1
  have := C35_loading (format := .xgboost) hload h2 nTrees
  simpa [dumpForest] using this

/-- C38: the trees of the loaded model give the values of the dumped trees, where XGBoost takes the first branch if `x < t`, as soon as
`x <= strictToLe t` is the same test (C39). -/
theorem C38_value (lt le : F → F → Bool) (strictToLe : F → F) (h : ∀ x t, le x (strictToLe t) = lt x t) (t : LTree F)
    (row : List F) : (t.toTree strictToLe).value (goesLeft le row) = t.value (goesLeft lt row) := by
  induction t with
  | leaf id v => rfl
  | node id f th l r ihl ihr =>
    have : goesLeft le row f (strictToLe th) = goesLeft lt row f th := by
      unfold goesLeft
      cases row[f]? with
      | none => rfl
      | some x => exact h x th
    simp only [LTree.toTree, Spec.Tree.value, LTree.value, this, ihl, ihr]

/-- C38: a dump of two trees with arbitrary ids and other lines, and what is loaded. -/
example :
    (([DumpLine.tree 0, .node 0 3 (1 / 2), .other, .leaf 7 1, .node 2 1 4, .leaf 5 2, .leaf 6 3, .tree 1, .leaf 0 9] : List (DumpLine ℚ)).filter relevant =
      forestDump 0 [.node 0 3 (1 / 2) (.leaf 7 1) (.node 2 1 4 (.leaf 5 2) (.leaf 6 3)), .leaf 0 9]) ∧
    (rtEnsemble (1 / 2) .xgboost (xgboostLoad 0 1 (-1) (fun t => t - 1 / 8)
      [.tree 0, .node 0 3 (1 / 2), .other, .leaf 7 1, .node 2 1 4, .leaf 5 2, .leaf 6 3, .tree 1, .leaf 0 9]) 1 none none =
      .ok ⟨⟨2, 6, [0, 5], [1, 1], [1, -1, 3, -1, -1, -1], [2, -1, 4, -1, -1, -1], [3 / 8, 1, 31 / 8, 2, 3, 9],
        [3, -1, 1, -1, -1, -1]⟩, (1 : ℚ), some (1 / 2)⟩) := by
  decide +kernel

end C38

/-! ### C39 -/

/-- C39, proved part: for thresholds with `-2^24 < t <= 2^24`, and more generally whenever the float below `t` is less than 2 away,
`x < t` iff `x <=` the stored threshold, for all finite floats `x`. `rnd` is any rounding to nearest. Floats are given by their
ordinals, `f32` is the value. Missing: larger thresholds, for which it is false, see `C39_violated`. -/
theorem C39_strict_partial (rnd : Int → Int) {t : Int} (ht : F32Finite (t - 1)) (hr : RoundsTo (f32 t - f32One) (rnd (f32 t - f32One)))
    (hgap : f32 t - f32 (t - 1) < 2 * f32One) (x : Int) :
    f32 x < f32 t ↔ f32 x ≤ f32 (xgboostThreshold rnd t) := by
  have hlt : rnd (f32 t - f32One) < t := by
    by_contra hcon
    push Not at hcon
    have h1 := hr.nearest (t - 1) ht
    have h2 := f32_le.2 hcon
    have h3 : f32 (t - 1) < f32 t := f32_lt.2 (by omega)
    have hone : 0 < f32One := by decide
    rcases abs_cases (f32 (rnd (f32 t - f32One)) - (f32 t - f32One)) with ⟨e1, _⟩ | ⟨e1, _⟩ <;>
      rcases abs_cases (f32 (t - 1) - (f32 t - f32One)) with ⟨e2, _⟩ | ⟨e2, _⟩ <;> rw [e1, e2] at h1 <;> omega
  rw [xgboostThreshold, nextafter32, if_pos hlt, f32_lt, f32_le]
  omega

/-- C39: the gap condition holds for `-2^24 < t <= 2^24` (values in units of 2^-149). -/
theorem C39_gap {t : Int} (h1 : -(2 ^ 24 * f32One) < f32 t) (h2 : f32 t ≤ 2 ^ 24 * f32One) :
    f32 t - f32 (t - 1) < 2 * f32One := by
  have e1 : f32 (-(151 * 2 ^ 23)) = -(2 ^ 24 * f32One) := by decide +kernel
  have e2 : f32 (151 * 2 ^ 23) = 2 ^ 24 * f32One := by decide +kernel
  rw [← e1, f32_lt] at h1
  rw [← e2, f32_le] at h2
  have h := f32_succ (t - 1)
  rw [Int.sub_add_cancel] at h
  rw [h]
  have hexp : (if 0 ≤ t - 1 then (t - 1).toNat else (-t).toNat) / 2 ^ 23 - 1 ≤ 149 := by
    have : (if 0 ≤ t - 1 then (t - 1).toNat else (-t).toNat) < 151 * 2 ^ 23 := by
      split <;> omega
    have := (Nat.div_lt_iff_lt_mul (by norm_num : 0 < 2 ^ 23)).2 this
    omega
  have h149 : (2 : Int) ^ 149 < 2 * f32One := by unfold f32One; norm_num
  exact lt_of_le_of_lt (pow_le_pow_right₀ (by norm_num) hexp) h149

/-- C39: every ordinary threshold (1/2 here, ordinal `126 * 2^23`) meets the hypotheses. -/
example : ∃ rnd : Int → Int, RoundsTo (f32 (126 * 2 ^ 23) - f32One) (rnd (f32 (126 * 2 ^ 23) - f32One)) ∧
    f32 (126 * 2 ^ 23) * 2 = f32One ∧ F32Finite (126 * 2 ^ 23 - 1) ∧ -(2 ^ 24 * f32One) < f32 (126 * 2 ^ 23) ∧
    f32 (126 * 2 ^ 23) ≤ 2 ^ 24 * f32One := by
  refine ⟨fun _ => -(126 * 2 ^ 23), ?_, by decide +kernel, by constructor <;> norm_num, by decide +kernel, by decide +kernel⟩
  have : f32 (126 * 2 ^ 23) - f32One = f32 (-(126 * 2 ^ 23)) := by decide +kernel
  rw [this]
  exact roundsTo_self (by constructor <;> norm_num)

/-- Rounding when the number lies between two neighbouring floats: only these two have to be compared. -/
theorem roundsTo_of_between {q k : Int} (hk : F32Finite k) (hlo : f32 (k - 1) ≤ q) (hhi : q ≤ f32 k)
    (hdist : f32 k - q ≤ q - f32 (k - 1)) (heven : k % 2 = 0) : RoundsTo q k where
  finite := hk
  nearest j _ := by
    rcases lt_or_ge j k with h | h
    · have := f32_le.2 (show j ≤ k - 1 by omega)
      rw [abs_of_nonneg (by omega), abs_of_nonpos (by omega)]
      omega
    · have := f32_le.2 h
      rw [abs_of_nonneg (by omega), abs_of_nonneg (by omega)]
      omega
  even _ _ _ _ := heven

/-- C39 is violated for the threshold 2^25: it is stored unchanged, and `x = 2^25` goes to the left child although `x < 2^25` is
false. -/
theorem C39_violated : ∃ t x : Int, F32Finite t ∧ F32Finite x ∧ f32 t = 2 ^ 25 * f32One ∧
    ∀ rnd : Int → Int, (∀ q, (∃ k, RoundsTo q k) → RoundsTo q (rnd q)) →
      ¬ (f32 x < f32 t) ∧ f32 x ≤ f32 (xgboostThreshold rnd t) := by
  refine ⟨152 * 2 ^ 23, 152 * 2 ^ 23, by constructor <;> norm_num, by constructor <;> norm_num, by decide +kernel, ?_⟩
  intro rnd hrnd
  refine ⟨lt_irrefl _, ?_⟩
  have hto : RoundsTo (f32 (152 * 2 ^ 23) - f32One) (152 * 2 ^ 23) :=
    roundsTo_of_between (by constructor <;> norm_num) (by decide +kernel) (by decide +kernel) (by decide +kernel) (by norm_num)
  have hr := hrnd _ ⟨_, hto⟩
  have hge : 152 * 2 ^ 23 ≤ rnd (f32 (152 * 2 ^ 23) - f32One) := by
    by_contra hcon
    push Not at hcon
    have h1 := hr.nearest _ hto.finite
    have h2 := hr.even (152 * 2 ^ 23) hto.finite (by omega)
    have h3 := f32_le.2 (show rnd (f32 (152 * 2 ^ 23) - f32One) ≤ 152 * 2 ^ 23 - 1 by omega)
    have e1 : f32 (152 * 2 ^ 23) - f32 (152 * 2 ^ 23 - 1) = 2 * f32One := by decide +kernel
    have hone : 0 < f32One := by decide
    rcases eq_or_lt_of_le h3 with h4 | h4
    · have h5 : rnd (f32 (152 * 2 ^ 23) - f32One) = 152 * 2 ^ 23 - 1 := f32_strictMono.injective h4
      have h6 := h2 (by
        rw [h5, abs_of_nonpos (by omega), abs_of_nonneg (by omega)]; omega)
      rw [h5] at h6
      norm_num at h6
    · rw [abs_of_nonpos (by omega), abs_of_nonneg (by omega)] at h1
      omega
  unfold xgboostThreshold nextafter32
  rw [if_neg (by omega)]
  split
  · exact f32_le.2 (by omega)
  · exact le_refl _


/-! ### C40 -/

section C40
variable {F : Type}

/-- The lines of the export: header, then the trees. -/
theorem dumpCount_header (b l : F) (lines : List (DumpLine F)) :
    dumpCount (.baseScore b :: .learningRate l :: lines) = dumpCount lines := by
  simp [dumpCount]

theorem scikitLoad_represents (zero one minusOne : F) {lines : List (DumpLine F)} {ts : List (LTree F)} {b l : F}
    (hlines : lines.filter relevant = .baseScore b :: .learningRate l :: forestDump 0 ts)
    (hids : ∀ t ∈ ts, t.ids.Perm (List.range t.ids.length) ∧ t.ids.head? = some 0)
    (hf : ∀ t ∈ ts, ∀ f ∈ (t.toTree id).features, f < 2 ^ 15) (lr : F) (bs : Option F) :
    ∃ a, scikitLoad zero one minusOne lines lr bs = .ok ⟨a, l, some b⟩ ∧
      Represents a (ts.map (fun t => (t.toTree id, one))) := by
  set cfg : DumpCfg F := ⟨true, id, true, one⟩ with hcfg
  have hcount : dumpCount lines = ((dumpForest cfg ts).length, Forest.numNodes (dumpForest cfg ts)) := by
    rw [← dumpCount_other, hlines, dumpCount_header, count_forestDump cfg]
  obtain ⟨s', h1, h2, h3, h4⟩ := dump_forest cfg ts (fun t ht _ => hids t ht) hf ts 0
    ⟨alloc zero minusOne (dumpForest cfg ts).length (Forest.numNodes (dumpForest cfg ts)), l, some b, 0, 0, []⟩ rfl (by simp)
    (loadedTrees_alloc _ zero minusOne rfl rfl) rfl rfl
  refine ⟨s'.m, ?_, h2⟩
  have hdef : scikitLoad zero one minusOne lines lr bs = dumpLoad cfg zero minusOne lines lr bs := rfl
  rw [hdef]
  unfold dumpLoad
  rw [hcount]
  simp only [foldlM_other _ lines, hlines]
  simp only [List.foldlM_cons]
  have e1 : dumpStep cfg ⟨alloc zero minusOne (dumpForest cfg ts).length (Forest.numNodes (dumpForest cfg ts)), lr, bs, 0, 0, []⟩
      (.baseScore b) = .ok ⟨alloc zero minusOne (dumpForest cfg ts).length (Forest.numNodes (dumpForest cfg ts)), lr, some b, 0, 0, []⟩ := rfl
  have e2 : dumpStep cfg ⟨alloc zero minusOne (dumpForest cfg ts).length (Forest.numNodes (dumpForest cfg ts)), lr, some b, 0, 0, []⟩
      (.learningRate l) = .ok ⟨alloc zero minusOne (dumpForest cfg ts).length (Forest.numNodes (dumpForest cfg ts)), l, some b, 0, 0, []⟩ := rfl
  rw [e1]
  simp only [bind, Except.bind]
  rw [e2]
  simp only [h1]
  simp only [pure, Except.pure, h3, h4]

/-- C40: for every list of trees whose node ids are 0, 1, ... in any order with the root first, loading gives exactly these trees, in
order, each with weight 1, and base score and learning rate from the file, whatever was given to the constructor. -/
theorem C40_load (zero one minusOne half : F) {lines : List (DumpLine F)} {ts : List (LTree F)} {b l : F}
    (hlines : lines.filter relevant = .baseScore b :: .learningRate l :: forestDump 0 ts)
    (hids : ∀ t ∈ ts, t.ids.Perm (List.range t.ids.length) ∧ t.ids.head? = some 0)
    (hf : ∀ t ∈ ts, ∀ f ∈ (t.toTree id).features, f < 2 ^ 15) (lr : F) (bs : Option F) (nTrees : Option Nat) :
    ∃ a, rtEnsemble half .scikitLearn (scikitLoad zero one minusOne lines) lr bs nTrees = .ok ⟨a, l, some b⟩ ∧
      Represents a ((ts.map (fun t => (t.toTree id, one))).take (nTrees.elim ts.length id)) := by
  obtain ⟨a, h1, h2⟩ := scikitLoad_represents zero one minusOne hlines hids hf lr
    (if Format.scikitLearn = .xgboost then some (bs.elim half id) else bs)
  have := C35_loading (format := .scikitLearn) h1 h2 nTrees
  simpa using this

theorem exportNode_ok {a : SkTree F} {i : Nat} {t : LTree F} (fmt str : F → F) (h : SkEncodes a i t) :
    ∀ fuel, t.ids.length ≤ fuel → exportNode fmt str a fuel i = .ok (t.mapValues fmt str).dump := by
  induction h with
  | leaf hf hv =>
    intro fuel hfuel
    obtain ⟨n, rfl⟩ : ∃ n, fuel = n + 1 := ⟨fuel - 1, by simp [LTree.ids] at hfuel; omega⟩
    unfold exportNode
    simp [pyGet_ok hf, pyGet_ok hv, LTree.mapValues, LTree.dump, bind, Except.bind, pure, Except.pure]
  | node hf ht hl hr _ _ ihl ihr =>
    intro fuel hfuel
    simp only [LTree.ids, List.length_cons, List.length_append] at hfuel
    obtain ⟨n, rfl⟩ : ∃ n, fuel = n + 1 := ⟨fuel - 1, by omega⟩
    unfold exportNode
    simp only [pyGet_ok hf, pyGet_ok ht, pyGet_ok hl, pyGet_ok hr, LTree.mapValues, LTree.dump, bind, Except.bind, pure,
      Except.pure, ihl n (by omega), ihr n (by omega)]
    rw [if_pos (by omega)]
    simp

theorem skEncodes_ids {a : SkTree F} {i : Nat} {t : LTree F} (h : SkEncodes a i t) :
    t.ids.head? = some i ∧ ∀ j ∈ t.ids, j < a.feature.length := by
  induction h with
  | leaf hf _ => simpa [LTree.ids] using (List.getElem?_eq_some_iff.1 hf).1
  | node hf _ _ _ _ _ ihl ihr =>
    refine ⟨rfl, ?_⟩
    intro j hj
    simp only [LTree.ids, List.mem_cons, List.mem_append] at hj
    rcases hj with rfl | hj | hj
    · exact (List.getElem?_eq_some_iff.1 hf).1
    · exact ihl.2 j hj
    · exact ihr.2 j hj

theorem ids_mapValues {G : Type} (g h : F → G) (t : LTree F) : (t.mapValues g h).ids = t.ids := by
  induction t with
  | leaf => rfl
  | node _ _ _ _ _ ihl ihr => simp [LTree.mapValues, LTree.ids, ihl, ihr]

theorem features_mapValues {G : Type} (g h : F → G) (t : LTree F) : ((t.mapValues g h).toTree id).features = (t.toTree id).features := by
  induction t with
  | leaf => rfl
  | node _ _ _ _ _ ihl ihr => simp [LTree.mapValues, LTree.toTree, Spec.Tree.features, ihl, ihr]

theorem zipIdx_forestDump (ts : List (LTree F)) (k : Nat) :
    ((ts.map LTree.dump).zipIdx k).flatMap (fun p => DumpLine.tree p.2 :: p.1) = forestDump k ts := by
  induction ts generalizing k with
  | nil => rfl
  | cons t ts ih => simp [forestDump, List.zipIdx_cons, ih]

/-- C40: writing fitted scikit-learn trees with `export_scikit_model` and loading the file gives the same trees, base score and
learning rate, up to what the printed formats do to the numbers (`fmt` for `%f`, `str` for `%s`). -/
theorem C40_export (zero one minusOne half : F) (fmt str : F → F) {sks : List (SkTree F)} {ts : List (LTree F)}
    (henc : List.Forall₂ (fun a t => SkEncodes a 0 t) sks ts) (hids : ∀ t ∈ ts, t.ids.Perm (List.range t.ids.length))
    (hf : ∀ t ∈ ts, ∀ f ∈ (t.toTree id).features, f < 2 ^ 15) (b l lr : F) (bs : Option F) :
    ∃ lines a, exportForest fmt str b l sks = .ok lines ∧
      rtEnsemble half .scikitLearn (scikitLoad zero one minusOne lines) lr bs none = .ok ⟨a, fmt l, some (fmt b)⟩ ∧
      Represents a (ts.map (fun t => ((t.mapValues fmt str).toTree id, one))) := by
  have hbody : sks.mapM (fun t => exportNode fmt str t (t.feature.length + 1) 0) =
      .ok (ts.map (fun t => (t.mapValues fmt str).dump)) := by
    clear hf
    induction henc with
    | nil => rfl
    | @cons a t as ts' h _ ih =>
      have hlen : t.ids.length ≤ a.feature.length + 1 := by
        by_contra hcon
        have hmem : t.ids.length - 1 ∈ t.ids :=
          (hids t (by simp)).mem_iff.2 (List.mem_range.2 (by omega))
        have := (skEncodes_ids h).2 _ hmem
        omega
      rw [List.mapM_cons, ih (fun t ht => hids t (by simp [ht]))]
      have := exportNode_ok fmt str h _ hlen
      simp only [Nat.cast_zero] at this
      rw [this]
      rfl
  have hlines : exportForest fmt str b l sks =
      .ok (.baseScore (fmt b) :: .learningRate (fmt l) :: forestDump 0 (ts.map (fun t => t.mapValues fmt str))) := by
    unfold exportForest
    rw [hbody, ← zipIdx_forestDump]
    simp [bind, Except.bind, pure, Except.pure, List.map_map, Function.comp_def]
  have hrel : ∀ (us : List (LTree F)) k, (forestDump k us).filter relevant = forestDump k us := by
    intro us k
    apply List.filter_eq_self.2
    have hd : ∀ (u : LTree F), ∀ x ∈ u.dump, relevant x = true := by
      intro u
      induction u with
      | leaf => simp [LTree.dump, relevant]
      | node _ _ _ _ _ ihl ihr =>
        intro x hx
        simp only [LTree.dump, List.mem_cons, List.mem_append] at hx
        rcases hx with rfl | hx | hx
        · rfl
        · exact ihl x hx
        · exact ihr x hx
    induction us generalizing k with
    | nil => simp [forestDump]
    | cons u us ih =>
      intro x hx
      simp only [forestDump, List.mem_cons, List.mem_append] at hx
      rcases hx with rfl | hx | hx
      · rfl
      · exact hd u x hx
      · exact ih (k + 1) x hx
  obtain ⟨a, h1, h2⟩ := C40_load zero one minusOne half
    (lines := .baseScore (fmt b) :: .learningRate (fmt l) :: forestDump 0 (ts.map (fun t => t.mapValues fmt str)))
    (ts := ts.map (fun t => t.mapValues fmt str)) (b := fmt b) (l := fmt l)
    (by simp only [List.filter_cons, relevant, if_true, hrel]) (by
      intro t ht
      obtain ⟨u, hu, rfl⟩ := List.mem_map.1 ht
      rw [ids_mapValues]
      refine ⟨hids u hu, ?_⟩
      obtain ⟨i, hi, rfl⟩ := List.getElem_of_mem hu
      have := List.forall₂_iff_get.1 henc
      exact (skEncodes_ids (this.2 i (by omega) hi)).1) (by
      intro t ht
      obtain ⟨u, hu, rfl⟩ := List.mem_map.1 ht
      rw [features_mapValues]
      exact hf u hu) lr bs none
  refine ⟨_, a, hlines, h1, ?_⟩
  have h3 := h2
  simp only [List.map_map, Function.comp_def, Option.elim_none, List.length_map] at h3
  rwa [List.take_of_length_le (by simp)] at h3

/-- C40: a file with a header, node ids out of order and other lines, and what is loaded. -/
example :
    (([DumpLine.baseScore 3, .other, .learningRate (1 / 10), .tree 0, .node 0 2 (1 / 2), .node 3 1 4, .leaf 2 2, .leaf 4 3, .leaf 1 1] :
      List (DumpLine ℚ)).filter relevant =
      .baseScore 3 :: .learningRate (1 / 10) :: forestDump 0 [.node 0 2 (1 / 2) (.node 3 1 4 (.leaf 2 2) (.leaf 4 3)) (.leaf 1 1)]) ∧
    (rtEnsemble (1 / 2) .scikitLearn (scikitLoad 0 1 (-1)
      [.baseScore 3, .other, .learningRate (1 / 10), .tree 0, .node 0 2 (1 / 2), .node 3 1 4, .leaf 2 2, .leaf 4 3, .leaf 1 1]) 1 none none =
      .ok ⟨⟨1, 5, [0], [1], [3, -1, -1, 2, -1], [1, -1, -1, 4, -1], [1 / 2, 1, 2, 4, 3], [2, -1, -1, 1, -1]⟩, (1 / 10 : ℚ), some 3⟩) := by
  decide +kernel

/-- C40: the same tree as arrays of scikit-learn, exported. -/
example : exportForest id id (3 : ℚ) (1 / 10)
      [⟨[2, -2, -2, 1, -2], [1 / 2, -2, -2, 4, -2], [3, -1, -1, 2, -1], [1, -1, -1, 4, -1], [0, 1, 2, 0, 3]⟩] =
    .ok (.baseScore 3 :: .learningRate (1 / 10) ::
      forestDump 0 [.node 0 2 (1 / 2) (.node 3 1 4 (.leaf 2 2) (.leaf 4 3)) (.leaf 1 1)]) ∧
    SkEncodes (F := ℚ) ⟨[2, -2, -2, 1, -2], [1 / 2, -2, -2, 4, -2], [3, -1, -1, 2, -1], [1, -1, -1, 4, -1], [0, 1, 2, 0, 3]⟩ 0
      (.node 0 2 (1 / 2) (.node 3 1 4 (.leaf 2 2) (.leaf 4 3)) (.leaf 1 1)) := by
  refine ⟨by decide +kernel, ?_⟩
  exact .node (l := 3) (r := 1) rfl rfl rfl rfl (.node (l := 2) (r := 4) rfl rfl rfl rfl (.leaf rfl rfl) (.leaf rfl rfl)) (.leaf rfl rfl)

end C40

end Verif.Props
