/-
The loaders write links from parents to later nodes only.
-/
import Verif.Lemmas.QuickRank
import Verif.Lemmas.Loader
import Verif.Spec.Dump
import Verif.Spec.Arrays
import Verif.Spec.Coreml
import Verif.Spec.Topology
import Verif.Spec.ParentFirst

namespace Verif
open Spec
namespace Ensemble
variable {F : Type} {m m' : Ensemble F}

theorem parentFirst_alloc (zero minusOne : F) (nt nn : Nat) : ParentFirst (alloc zero minusOne nt nn) := by
  intro i j h
  simp only [alloc, List.getElem?_replicate] at h
  rcases h with h | h <;> split at h <;> simp at h
  all_goals omega

theorem parentFirst_congr (h : ParentFirst m) (hl : m'.left = m.left) (hr : m'.right = m.right) : ParentFirst m' := by
  intro i j hij
  rw [hl, hr] at hij
  exact h i j hij

theorem bind_ok {α β : Type} {x : Except PyErr α} {f : α → Except PyErr β} {b : β} (h : (x >>= f) = .ok b) : ∃ a, x = .ok a ∧ f a = .ok b := by
  cases x with
  | error e => cases h
  | ok a => exact ⟨a, rfl, h⟩

theorem pf_setRoot {i v : Int} (h : ParentFirst m) (e : setRoot m i v = .ok m') : ParentFirst m' := by
  obtain ⟨a, -, h2⟩ := bind_ok e
  cases h2
  exact parentFirst_congr h rfl rfl

theorem pf_setWeight {i : Int} {v : F} (h : ParentFirst m) (e : setWeight m i v = .ok m') : ParentFirst m' := by
  obtain ⟨a, -, h2⟩ := bind_ok e
  cases h2
  exact parentFirst_congr h rfl rfl

theorem pf_setValue {i : Int} {v : F} (h : ParentFirst m) (e : setValue m i v = .ok m') : ParentFirst m' := by
  obtain ⟨a, -, h2⟩ := bind_ok e
  cases h2
  exact parentFirst_congr h rfl rfl

theorem pf_setFeature {i v : Int} (h : ParentFirst m) (e : setFeature m i v = .ok m') : ParentFirst m' := by
  obtain ⟨a, -, h2⟩ := bind_ok e
  cases h2
  exact parentFirst_congr h rfl rfl

theorem pySet_inv {α : Type} {a a' : List α} {i : Int} {x : α} (hi : 0 ≤ i) (e : pySet a i x = .ok a') : a' = a.set i.toNat x := by
  unfold pySet at e
  simp only [if_pos hi] at e
  split at e
  · cases e; rfl
  · cases e

theorem getElem?_set_some {α : Type} {a : List α} {k i : Nat} {x y : α} (h : (a.set k x)[i]? = some y) : (i = k ∧ y = x) ∨ a[i]? = some y := by
  by_cases hik : k = i
  · subst hik
    left
    rw [List.getElem?_set] at h
    simp only [if_true] at h
    split at h
    · cases h; exact ⟨rfl, rfl⟩
    · cases h
  · right
    rwa [List.getElem?_set_ne hik] at h

theorem pf_setLeft {p v : Int} (h : ParentFirst m) (hp : 0 ≤ p) (hv : p < v) (e : setLeft m p v = .ok m') : ParentFirst m' := by
  obtain ⟨a, h1, h2⟩ := bind_ok e
  cases h2
  rw [pySet_inv hp h1]
  intro i j hij
  rcases hij with hij | hij
  · rcases getElem?_set_some hij with ⟨rfl, h3⟩ | h3
    · omega
    · exact h i j (Or.inl h3)
  · exact h i j (Or.inr hij)

theorem pf_setRight {p v : Int} (h : ParentFirst m) (hp : 0 ≤ p) (hv : p < v) (e : setRight m p v = .ok m') : ParentFirst m' := by
  obtain ⟨a, h1, h2⟩ := bind_ok e
  cases h2
  rw [pySet_inv hp h1]
  intro i j hij
  rcases hij with hij | hij
  · exact h i j (Or.inl hij)
  · rcases getElem?_set_some hij with ⟨rfl, h3⟩ | h3
    · omega
    · exact h i j (Or.inr h3)

theorem foldlM_inv {σ ε : Type} {P : σ → Prop} {step : σ → ε → Except PyErr σ} : ∀ {l : List ε} {s s' : σ},
    (∀ e ∈ l, ∀ s s', P s → step s e = .ok s' → P s') → P s → l.foldlM step s = .ok s' → P s'
  | [], s, s', _, hs, e => by cases e; exact hs
  | x :: l, s, s', hstep, hs, e => by
    rw [List.foldlM_cons] at e
    obtain ⟨a, h1, h2⟩ := bind_ok e
    exact foldlM_inv (fun e he => hstep e (by simp [he])) (hstep x (by simp) _ _ hs h1) h2

theorem foldlM_append_ok {σ ε : Type} {step : σ → ε → Except PyErr σ} {l l' : List ε} {s s'' : σ}
    (e : (l ++ l').foldlM step s = .ok s'') : ∃ s', l.foldlM step s = .ok s' ∧ l'.foldlM step s' = .ok s'' := by
  rw [List.foldlM_append] at e
  exact bind_ok e

/-- Pruning cuts the arrays. -/
theorem parentFirst_prune {n : Nat} (h : ParentFirst m) (e : prune m n = .ok m') : ParentFirst m' := by
  unfold prune at e
  split at e
  · cases e; exact h
  · obtain ⟨st, -, h2⟩ := bind_ok e
    cases h2
    have key : ∀ (l : List Int) (i : Nat) (x : Int), (pyTake st l)[i]? = some x → l[i]? = some x := by
      intro l i x hx
      unfold pyTake at hx
      split at hx
      all_goals
        rw [List.getElem?_take] at hx
        split at hx
        · exact hx
        · cases hx
    intro i j hij
    rcases hij with hij | hij
    · exact h i j (Or.inl (key _ _ _ hij))
    · exact h i j (Or.inr (key _ _ _ hij))

theorem parentFirst_rtEnsemble {half : F} {format : Format} {load : F → Option F → Except PyErr (Loaded F)} {lr : F} {bs : Option F}
    {nTrees : Option Nat} {l : Loaded F} (hload : ∀ lr bs l, load lr bs = .ok l → ParentFirst l.arrays)
    (e : rtEnsemble half format load lr bs nTrees = .ok l) : ParentFirst l.arrays := by
  obtain ⟨l', h1, h2⟩ := bind_ok e
  have h3 := hload _ _ _ h1
  unfold pruneLoaded at h2
  split at h2
  · cases h2; exact h3
  · split at h2
    · obtain ⟨a, h4, h5⟩ := bind_ok h2
      cases h5
      exact parentFirst_prune h3 h4
    · cases h2; exact h3

/-! ### Dumps -/

theorem linkParent_pf {q q' : List (Nat × Bool)} {n : Nat} (h : ParentFirst m) (hq : ∀ p, q.head? = some p → p.1 < n)
    (e : linkParent m q n = .ok (m', q')) : ParentFirst m' ∧ q' = q.tail := by
  unfold linkParent at e
  split at e
  · cases e; exact ⟨h, rfl⟩
  · obtain ⟨a, h1, h2⟩ := bind_ok e
    cases h2
    exact ⟨pf_setLeft h (by omega) (by have := hq _ rfl; simp only at this; omega) h1, rfl⟩
  · obtain ⟨a, h1, h2⟩ := bind_ok e
    cases h2
    exact ⟨pf_setRight h (by omega) (by have := hq _ rfl; simp only at this; omega) h1, rfl⟩

theorem dumpStep_node {cfg : DumpCfg F} {s s' : DumpState F} {id f : Nat} {t : F} (h : ParentFirst s.m)
    (hq : ∀ p, s.queue.head? = some p → p.1 < (if cfg.fileIds then id else s.numNodes) + s.rootNode)
    (e : dumpStep cfg s (.node id f t) = .ok s') : ParentFirst s'.m ∧ s'.rootNode = s.rootNode ∧ s'.numNodes = s.numNodes + 1 ∧
      s'.queue = ((if cfg.fileIds then id else s.numNodes) + s.rootNode, true) ::
        ((if cfg.fileIds then id else s.numNodes) + s.rootNode, false) :: s.queue.tail := by
  obtain ⟨m1, h1, e⟩ := bind_ok e
  obtain ⟨m2, h2, e⟩ := bind_ok e
  obtain ⟨⟨m3, q⟩, h3, e⟩ := bind_ok e
  cases e
  obtain ⟨h4, rfl⟩ := linkParent_pf (pf_setValue (pf_setFeature h h1) h2) hq h3
  exact ⟨h4, rfl, rfl, rfl⟩

theorem dumpStep_leaf {cfg : DumpCfg F} {s s' : DumpState F} {id : Nat} {v : F} (h : ParentFirst s.m)
    (hq : ∀ p, s.queue.head? = some p → p.1 < (if cfg.fileIds then id else s.numNodes) + s.rootNode)
    (e : dumpStep cfg s (.leaf id v) = .ok s') : ParentFirst s'.m ∧ s'.rootNode = s.rootNode ∧ s'.numNodes = s.numNodes + 1 ∧
      s'.queue = s.queue.tail := by
  obtain ⟨m1, h1, e⟩ := bind_ok e
  obtain ⟨⟨m3, q⟩, h3, e⟩ := bind_ok e
  cases e
  obtain ⟨h4, rfl⟩ := linkParent_pf (pf_setValue h h1) hq h3
  exact ⟨h4, rfl, rfl, rfl⟩

theorem dumpStep_tree {cfg : DumpCfg F} {s s' : DumpState F} {i : Nat} (h : ParentFirst s.m) (e : dumpStep cfg s (.tree i) = .ok s') :
    ParentFirst s'.m ∧ s.queue = [] ∧ s'.queue = [] := by
  unfold dumpStep at e
  simp only at e
  split at e
  · obtain ⟨m1, h1, e⟩ := bind_ok e
    obtain ⟨m2, h2, e⟩ := bind_ok e
    cases e
    exact ⟨pf_setWeight (pf_setRoot h h1) h2, by assumption, by assumption⟩
  · cases e

/-- XGBoost: every dump that can be read. -/
theorem xgboost_parentFirst {zero one minusOne : F} {strictToLe : F → F} {lines : List (DumpLine F)} {lr : F} {bs : Option F} {l : Loaded F}
    (e : xgboostLoad zero one minusOne strictToLe lines lr bs = .ok l) : ParentFirst l.arrays := by
  unfold xgboostLoad dumpLoad at e
  obtain ⟨s, h1, h2⟩ := bind_ok e
  cases h2
  have := foldlM_inv (P := fun s : DumpState F => ParentFirst s.m ∧ ∀ p ∈ s.queue, p.1 < s.numNodes + s.rootNode) ?_
    ⟨parentFirst_alloc _ _ _ _, by simp⟩ h1
  · exact this.1
  · intro x _ s s' ⟨hs, hq⟩ hx
    have hq' : ∀ p, s.queue.head? = some p → p.1 < (if false then 0 else s.numNodes) + s.rootNode := by
      intro p hp
      exact hq p (List.mem_of_mem_head? hp)
    cases x with
    | other => cases hx; exact ⟨hs, hq⟩
    | baseScore v => cases hx; exact ⟨hs, hq⟩
    | learningRate v => cases hx; exact ⟨hs, hq⟩
    | tree i =>
      obtain ⟨h3, -, h4⟩ := dumpStep_tree hs hx
      exact ⟨h3, by rw [h4]; simp⟩
    | node id f t =>
      obtain ⟨h3, h4, h5, h6⟩ := dumpStep_node hs hq' hx
      refine ⟨h3, ?_⟩
      intro p hp
      rw [h6] at hp
      rw [h4, h5]
      simp only [List.mem_cons] at hp
      rcases hp with rfl | rfl | hp
      · show (if false = true then id else s.numNodes) + s.rootNode < _
        simp
      · show (if false = true then id else s.numNodes) + s.rootNode < _
        simp
      · have := hq p (List.mem_of_mem_tail hp)
        omega
    | leaf id v =>
      obtain ⟨h3, h4, h5, h6⟩ := dumpStep_leaf hs hq' hx
      refine ⟨h3, ?_⟩
      intro p hp
      rw [h6] at hp
      have := hq p (List.mem_of_mem_tail hp)
      omega

theorem dump_fileIds {cfg : DumpCfg F} (hcfg : cfg.fileIds = true) : ∀ {t : LTree F} {s s' : DumpState F}, t.IdsGrow → ParentFirst s.m →
    (∀ p, s.queue.head? = some p → p.1 < t.id + s.rootNode) → t.dump.foldlM (dumpStep cfg) s = .ok s' →
    ParentFirst s'.m ∧ s'.rootNode = s.rootNode ∧ s'.queue = s.queue.tail
  | .leaf id v, s, s', _, hs, hq, e => by
    rw [LTree.dump, List.foldlM_cons] at e
    obtain ⟨s1, h1, h2⟩ := bind_ok e
    cases h2
    obtain ⟨h3, h4, -, h6⟩ := dumpStep_leaf hs (by rw [hcfg]; exact hq) h1
    exact ⟨h3, h4, h6⟩
  | .node id f t l r, s, s', hg, hs, hq, e => by
    obtain ⟨hl, hr, hgl, hgr⟩ := hg
    rw [LTree.dump, List.foldlM_cons] at e
    obtain ⟨s1, h1, h2⟩ := bind_ok e
    obtain ⟨s2, h2, h2'⟩ := foldlM_append_ok h2
    obtain ⟨h3, h4, -, h6⟩ := dumpStep_node hs (by rw [hcfg]; exact hq) h1
    rw [hcfg] at h6
    simp only [if_true] at h6
    obtain ⟨h7, h8, h9⟩ := dump_fileIds hcfg hgl h3 (by
      intro p hp
      rw [h6] at hp
      cases hp
      rw [h4]
      simp only
      omega) h2
    rw [h6, List.tail_cons] at h9
    obtain ⟨h10, h11, h12⟩ := dump_fileIds hcfg hgr h7 (by
      intro p hp
      rw [h9] at hp
      cases hp
      rw [h8, h4]
      simp only
      omega) h2'
    refine ⟨h10, by rw [h11, h8, h4], ?_⟩
    rw [h12, h9, List.tail_cons]

theorem forestDump_fileIds {cfg : DumpCfg F} (hcfg : cfg.fileIds = true) : ∀ {ts : List (LTree F)} {k : Nat} {s s' : DumpState F},
    (∀ t ∈ ts, t.IdsGrow) → ParentFirst s.m → (forestDump k ts).foldlM (dumpStep cfg) s = .ok s' → ParentFirst s'.m
  | [], _, _, _, _, hs, e => by cases e; exact hs
  | t :: ts, k, s, s', hg, hs, e => by
    rw [forestDump, List.foldlM_cons] at e
    obtain ⟨s1, h1, h2⟩ := bind_ok e
    obtain ⟨s2, h2, h3⟩ := foldlM_append_ok h2
    obtain ⟨h4, -, h5⟩ := dumpStep_tree hs h1
    obtain ⟨h6, -⟩ := dump_fileIds hcfg (hg t (by simp)) h4 (by rw [h5]; simp) h2
    exact forestDump_fileIds hcfg (fun t ht => hg t (by simp [ht])) h6 h3

theorem foldlM_relevant {cfg : DumpCfg F} : ∀ (lines : List (DumpLine F)) (s : DumpState F),
    lines.foldlM (dumpStep cfg) s = (lines.filter relevant).foldlM (dumpStep cfg) s
  | [], _ => rfl
  | x :: lines, s => by
    by_cases hx : relevant x = true
    · rw [List.filter_cons_of_pos hx, List.foldlM_cons, List.foldlM_cons]
      congr 1
      funext s'
      exact foldlM_relevant lines s'
    · rw [List.filter_cons_of_neg hx, List.foldlM_cons]
      cases x with
      | other => exact foldlM_relevant lines s
      | _ => simp [relevant] at hx

/-- scikit-learn: children have greater ids than their parents. -/
theorem scikit_parentFirst {zero one minusOne : F} {lines : List (DumpLine F)} {ts : List (LTree F)} {b l0 : F}
    (hlines : lines.filter relevant = .baseScore b :: .learningRate l0 :: forestDump 0 ts) (hg : ∀ t ∈ ts, t.IdsGrow) {lr : F} {bs : Option F}
    {l : Loaded F} (e : scikitLoad zero one minusOne lines lr bs = .ok l) : ParentFirst l.arrays := by
  unfold scikitLoad dumpLoad at e
  obtain ⟨s, h1, h2⟩ := bind_ok e
  cases h2
  rw [foldlM_relevant, hlines, List.foldlM_cons] at h1
  obtain ⟨s1, h3, h1⟩ := bind_ok h1
  rw [List.foldlM_cons] at h1
  obtain ⟨s2, h4, h1⟩ := bind_ok h1
  refine forestDump_fileIds rfl hg ?_ h1
  cases h3
  cases h4
  exact parentFirst_alloc _ _ _ _

/-! ### Arrays -/

theorem writeFrom_pf {α : Type} {set : Ensemble F → Int → α → Except PyErr (Ensemble F)} : ∀ {xs : List α} {m m' : Ensemble F} {base : Nat},
    (∀ (j : Nat) x m m', xs[j]? = some x → ParentFirst m → set m (base + j : Nat) x = .ok m' → ParentFirst m') → ParentFirst m →
    writeFrom set m base xs = .ok m' → ParentFirst m'
  | [], m, m', base, _, h, e => by cases e; exact h
  | x :: xs, m, m', base, hset, h, e => by
    obtain ⟨m1, h1, h2⟩ := bind_ok e
    refine writeFrom_pf (base := base + 1) ?_ (hset 0 x _ _ rfl h h1) h2
    intro j y m m' hy hm he
    refine hset (j + 1) y m m' (by simpa using hy) hm ?_
    rwa [show base + (j + 1) = base + 1 + j by omega]

theorem childIndex_gt {root nS j : Nat} {c : Int} (hj : j < nS) (hc : 0 ≤ c → (j : Int) < c) : ((root + j : Nat) : Int) < childIndex root nS c := by
  unfold childIndex
  split
  · have := hc (by assumption)
    omega
  · have : |c| = -c := abs_of_neg (by omega)
    omega

theorem leftChildren_pf {cs : List Int} {root nS : Nat} (hlen : cs.length ≤ nS) (hcs : ∀ (j : Nat) (c : Nat), cs[j]? = some (c : Int) → j < c)
    (h : ParentFirst m) (e : writeFrom (fun m i c => setLeft m i (childIndex root nS c)) m root cs = .ok m') : ParentFirst m' := by
  refine writeFrom_pf ?_ h e
  intro j c m m' hj hm he
  have hjl : j < cs.length := (List.getElem?_eq_some_iff.1 hj).1
  refine pf_setLeft hm (by omega) (childIndex_gt (by omega) ?_) he
  intro h0
  have := hcs j c.toNat (by rw [hj, Int.toNat_of_nonneg h0])
  omega

theorem rightChildren_pf {cs : List Int} {root nS : Nat} (hlen : cs.length ≤ nS) (hcs : ∀ (j : Nat) (c : Nat), cs[j]? = some (c : Int) → j < c)
    (h : ParentFirst m) (e : writeFrom (fun m i c => setRight m i (childIndex root nS c)) m root cs = .ok m') : ParentFirst m' := by
  refine writeFrom_pf ?_ h e
  intro j c m m' hj hm he
  have hjl : j < cs.length := (List.getElem?_eq_some_iff.1 hj).1
  refine pf_setRight hm (by omega) (childIndex_gt (by omega) ?_) he
  intro h0
  have := hcs j c.toNat (by rw [hj, Int.toNat_of_nonneg h0])
  omega

theorem features_pf {fs : List Nat} {root : Nat} (h : ParentFirst m)
    (e : writeFrom (fun m i (f : Nat) => setFeature m i f) m root fs = .ok m') : ParentFirst m' :=
  writeFrom_pf (set := fun m i (f : Nat) => setFeature m i f) (fun _ _ _ _ _ hm he => pf_setFeature hm he) h e

theorem lgbForest_pf {one : F} : ∀ {as : List (ArrTree F)} {k : Nat} {s s' : ArrState F}, (∀ a ∈ as, a.SplitsGrow) → ParentFirst s.m →
    (lgbForest k as).foldlM (lgbStep one) s = .ok s' → ParentFirst s'.m
  | [], _, _, _, _, h, e => by cases e; exact h
  | a :: as, k, s, s', hg, h, e => by
    rw [lgbForest, List.foldlM_cons] at e
    obtain ⟨s1, h1, e⟩ := bind_ok e
    obtain ⟨s2, h2, e⟩ := foldlM_append_ok e
    refine lgbForest_pf (fun a ha => hg a (by simp [ha])) ?_ e
    obtain ⟨g1, g2, g3, g4⟩ := hg a (by simp)
    obtain ⟨m1, q1, r1⟩ := bind_ok h1
    cases r1
    have p1 := pf_setRoot h q1
    simp only [ArrTree.lgbLines, List.foldlM_cons, List.foldlM_nil] at h2
    obtain ⟨s3, h3, h2⟩ := bind_ok h2
    cases h3
    obtain ⟨s4, h4, h2⟩ := bind_ok h2
    obtain ⟨m4, q4, r4⟩ := bind_ok h4
    cases r4
    have p4 := features_pf p1 q4
    obtain ⟨s5, h5, h2⟩ := bind_ok h2
    obtain ⟨m5, q5, r5⟩ := bind_ok h5
    cases r5
    have p5 := writeFrom_pf (fun j x m m' _ hm he => pf_setValue hm he) p4 q5
    obtain ⟨s6, h6, h2⟩ := bind_ok h2
    obtain ⟨m6, q6, r6⟩ := bind_ok h6
    cases r6
    have p6 := leftChildren_pf g1 g3 p5 q6
    obtain ⟨s7, h7, h2⟩ := bind_ok h2
    obtain ⟨m7, q7, r7⟩ := bind_ok h7
    cases r7
    have p7 := rightChildren_pf g2 g4 p6 q7
    obtain ⟨s8, h8, h2⟩ := bind_ok h2
    obtain ⟨m8, q8, r8⟩ := bind_ok h8
    cases r8
    have p8 := writeFrom_pf (fun j x m m' _ hm he => pf_setValue hm he) p7 q8
    obtain ⟨s9, h9, h2⟩ := bind_ok h2
    obtain ⟨m9, q9, r9⟩ := bind_ok h9
    cases r9
    cases h2
    exact pf_setWeight p8 q9

theorem jfForest_pf : ∀ {as : List (ArrTree F × F)} {s s' : ArrState F}, (∀ a ∈ as, a.1.SplitsGrow) → ParentFirst s.m →
    (jfForest as).foldlM jfStep s = .ok s' → ParentFirst s'.m
  | [], _, _, _, h, e => by cases e; exact h
  | (a, w) :: as, s, s', hg, h, e => by
    rw [jfForest, List.foldlM_cons] at e
    obtain ⟨s1, h1, e⟩ := bind_ok e
    obtain ⟨s2, h2, e⟩ := foldlM_append_ok e
    rw [List.foldlM_cons] at e
    obtain ⟨s2', h2', e⟩ := bind_ok e
    cases h2'
    refine jfForest_pf (fun a ha => hg a (by simp [ha])) ?_ e
    obtain ⟨g1, g2, g3, g4⟩ := hg (a, w) (by simp)
    have helem : ∀ {α : Type} {xs ys : List α}, elemText xs = .ok ys → ys = xs := by
      intro α xs ys hxy
      unfold elemText at hxy
      split at hxy
      · cases hxy
      · cases hxy; rfl
    obtain ⟨m1, q1, r1⟩ := bind_ok h1
    obtain ⟨m1', q1', r1⟩ := bind_ok r1
    cases r1
    have p1 := pf_setWeight (pf_setRoot h q1) q1'
    simp only [ArrTree.jfEvents, List.foldlM_cons, List.foldlM_nil] at h2
    obtain ⟨s4, h4, h2⟩ := bind_ok h2
    obtain ⟨x4, t4, h4⟩ := bind_ok h4
    obtain rfl := helem t4
    obtain ⟨m4, q4, r4⟩ := bind_ok h4
    cases r4
    have p4 := features_pf p1 q4
    obtain ⟨s6, h6, h2⟩ := bind_ok h2
    obtain ⟨x6, t6, h6⟩ := bind_ok h6
    obtain rfl := helem t6
    obtain ⟨m6, q6, r6⟩ := bind_ok h6
    cases r6
    have p6 := leftChildren_pf g1 g3 p4 q6
    obtain ⟨s7, h7, h2⟩ := bind_ok h2
    obtain ⟨x7, t7, h7⟩ := bind_ok h7
    obtain rfl := helem t7
    obtain ⟨m7, q7, r7⟩ := bind_ok h7
    cases r7
    have p7 := rightChildren_pf g2 g4 p6 q7
    obtain ⟨s5, h5, h2⟩ := bind_ok h2
    obtain ⟨x5, t5, h5⟩ := bind_ok h5
    obtain rfl := helem t5
    obtain ⟨m5, q5, r5⟩ := bind_ok h5
    cases r5
    have p5 := writeFrom_pf (fun j x m m' _ hm he => pf_setValue hm he) p7 q5
    obtain ⟨s8, h8, h2⟩ := bind_ok h2
    obtain ⟨x8, t8, h8⟩ := bind_ok h8
    obtain rfl := helem t8
    obtain ⟨m8, q8, r8⟩ := bind_ok h8
    cases r8
    cases h2
    exact writeFrom_pf (fun j x m m' _ hm he => pf_setValue hm he) p5 q8

theorem foldlM_filter {σ ε : Type} {step : σ → ε → Except PyErr σ} {keep : ε → Bool} (hskip : ∀ x, keep x = false → ∀ s, step s x = .ok s) :
    ∀ (l : List ε) (s : σ), l.foldlM step s = (l.filter keep).foldlM step s
  | [], _ => rfl
  | x :: l, s => by
    by_cases hx : keep x = true
    · rw [List.filter_cons_of_pos hx, List.foldlM_cons, List.foldlM_cons]
      congr 1
      funext s'
      exact foldlM_filter hskip l s'
    · rw [List.filter_cons_of_neg hx, List.foldlM_cons, hskip x (by simpa using hx)]
      exact foldlM_filter hskip l s

theorem lightgbm_parentFirst {zero one minusOne : F} {lines : List (LgbLine F)} {as : List (ArrTree F)}
    (hlines : lines.filter lgbRelevant = lgbForest 0 as) (hg : ∀ a ∈ as, a.SplitsGrow) {lr : F} {bs : Option F} {l : Loaded F}
    (e : lightgbmLoad zero one minusOne lines lr bs = .ok l) : ParentFirst l.arrays := by
  unfold lightgbmLoad at e
  obtain ⟨s, h1, h2⟩ := bind_ok e
  cases h2
  rw [foldlM_filter (keep := lgbRelevant) ?_, hlines] at h1
  · exact lgbForest_pf hg (parentFirst_alloc _ _ _ _) h1
  · intro x hx s
    cases x <;> simp [lgbRelevant] at hx
    · rename_i types
      unfold lgbStep
      simp only
      rw [if_neg (by simpa using hx)]
      rfl
    all_goals (try subst hx); rfl

theorem jforests_parentFirst {zero minusOne : F} {events : List (JfEvent F)} {as : List (ArrTree F × F)}
    (hevents : events.filter jfRelevant = jfForest as) (hg : ∀ a ∈ as, a.1.SplitsGrow) {lr : F} {bs : Option F} {l : Loaded F}
    (e : jforestsLoad zero minusOne events lr bs = .ok l) : ParentFirst l.arrays := by
  unfold jforestsLoad at e
  obtain ⟨c, -, e⟩ := bind_ok e
  obtain ⟨s, h1, h2⟩ := bind_ok e
  cases h2
  rw [foldlM_filter (keep := jfRelevant) ?_, hevents] at h1
  · exact jfForest_pf hg (parentFirst_alloc _ _ _ _) h1
  · intro x hx s
    cases x <;> simp [jfRelevant] at hx
    rfl

/-! ### CoreML -/

theorem coreNodes_ids : ∀ {t : CTree F} {k n : Nat} {x : CoreNode F}, (∀ i ∈ t.ids, i < n) → t.IdsFall → x ∈ t.nodes k →
    x.nodeId < n ∧ ∀ f th l r, coreChildren x.behavior = some (f, th, l, r) → l < x.nodeId ∧ r < x.nodeId
  | .leaf i v, k, n, x, hids, _, hx => by
    simp only [CTree.nodes, List.mem_singleton] at hx
    subst hx
    exact ⟨hids i (by simp [CTree.ids]), by simp [coreChildren]⟩
  | .gt i f t y z, k, n, x, hids, hg, hx => by
    obtain ⟨h1, h2, h3, h4⟩ := hg
    simp only [CTree.nodes, List.mem_cons, List.mem_append] at hx
    simp only [CTree.ids, List.mem_cons, List.mem_append] at hids
    rcases hx with rfl | hx | hx
    · refine ⟨hids i (by simp), ?_⟩
      intro f' th l r h
      simp only [coreChildren, Option.some.injEq, Prod.mk.injEq] at h
      obtain ⟨-, -, rfl, rfl⟩ := h
      exact ⟨h2, h1⟩
    · exact coreNodes_ids (fun j hj => hids j (by simp [hj])) h4 hx
    · exact coreNodes_ids (fun j hj => hids j (by simp [hj])) h3 hx
  | .le i f t y z, k, n, x, hids, hg, hx => by
    obtain ⟨h1, h2, h3, h4⟩ := hg
    simp only [CTree.nodes, List.mem_cons, List.mem_append] at hx
    simp only [CTree.ids, List.mem_cons, List.mem_append] at hids
    rcases hx with rfl | hx | hx
    · refine ⟨hids i (by simp), ?_⟩
      intro f' th l r h
      simp only [coreChildren, Option.some.injEq, Prod.mk.injEq] at h
      obtain ⟨-, -, rfl, rfl⟩ := h
      exact ⟨h1, h2⟩
    · exact coreNodes_ids (fun j hj => hids j (by simp [hj])) h3 hx
    · exact coreNodes_ids (fun j hj => hids j (by simp [hj])) h4 hx

theorem mem_coreNodes_tree : ∀ {ts : List (CTree F)} {k : Nat} {x : CoreNode F}, x ∈ coreNodes k ts → ∃ t ∈ ts, ∃ j, x ∈ t.nodes j
  | [], _, _, h => by simp [coreNodes] at h
  | t :: ts, k, x, h => by
    rw [coreNodes, List.mem_append] at h
    rcases h with h | h
    · exact ⟨t, by simp, k, h⟩
    · obtain ⟨t', h1, h2⟩ := mem_coreNodes_tree h
      exact ⟨t', by simp [h1], h2⟩

theorem coreStep_pf {one : F} {n : Nat} {x : CoreNode F} (h : ParentFirst m) (hid : x.nodeId < n)
    (hc : ∀ f th l r, coreChildren x.behavior = some (f, th, l, r) → l < x.nodeId ∧ r < x.nodeId) (e : coreStep one n m x = .ok m') :
    ParentFirst m' := by
  obtain ⟨m1, h1, e⟩ := bind_ok e
  have p1 : ParentFirst m1 := by
    unfold coreRoot at h1
    split at h1
    · obtain ⟨m2, h2, h3⟩ := bind_ok h1
      exact pf_setWeight (pf_setRoot h h2) h3
    · cases h1; exact h
  have hi : 0 ≤ remapNodeId x.nodeId n + ((x.treeId * n : Nat) : Int) := by
    unfold remapNodeId
    omega
  have inner : ∀ f th l r, coreChildren x.behavior = some (f, th, l, r) →
      (do let m ← setValue m1 (remapNodeId x.nodeId n + ((x.treeId * n : Nat) : Int)) th
          let m ← setFeature m (remapNodeId x.nodeId n + ((x.treeId * n : Nat) : Int)) (f : Int)
          let m ← setLeft m (remapNodeId x.nodeId n + ((x.treeId * n : Nat) : Int)) (((x.treeId * n : Nat) : Int) + remapNodeId l n)
          setRight m (remapNodeId x.nodeId n + ((x.treeId * n : Nat) : Int)) (((x.treeId * n : Nat) : Int) + remapNodeId r n)) = .ok m' →
      ParentFirst m' := by
    intro f th l r hlr e
    obtain ⟨hl, hr⟩ := hc f th l r hlr
    obtain ⟨m2, h2, e⟩ := bind_ok e
    obtain ⟨m3, h3, e⟩ := bind_ok e
    obtain ⟨m4, h4, e⟩ := bind_ok e
    refine pf_setRight (pf_setLeft (pf_setFeature (pf_setValue p1 h2) h3) hi ?_ h4) hi ?_ e
    · unfold remapNodeId; omega
    · unfold remapNodeId; omega
  unfold coreData at e
  cases hb : x.behavior with
  | leaf v => rw [hb] at e; exact pf_setValue p1 e
  | greaterThan f t a b => rw [hb] at e inner; exact inner _ _ _ _ rfl e
  | lessThanEqual f t a b => rw [hb] at e inner; exact inner _ _ _ _ rfl e
  | unsupported => rw [hb] at e; cases e

theorem catboost_parentFirst {zero one minusOne : F} {empty : Nat → List Nat} {nodes : List (CoreNode F)} {ts : List (CTree F)} {n : Nat}
    (hnodes : nodes.Perm (coreNodes 0 ts)) (hids : ∀ t ∈ ts, t.ids.Perm (List.range n)) (hg : ∀ t ∈ ts, t.IdsFall)
    {c : Nat × Nat} (hcount : coreCount empty nodes = .ok c) (hn : c.2 / c.1 = n)
    {lr : F} {bs : Option F} {l : Loaded F} (e : catboostLoad zero one minusOne empty nodes lr bs = .ok l) : ParentFirst l.arrays := by
  unfold catboostLoad at e
  obtain ⟨c', h0, e⟩ := bind_ok e
  rw [hcount] at h0
  cases h0
  obtain ⟨m, h1, h2⟩ := bind_ok e
  cases h2
  refine foldlM_inv (P := ParentFirst) ?_ (parentFirst_alloc _ _ _ _) h1
  intro x hx s s' hs hstep
  obtain ⟨t, ht, j, hj⟩ := mem_coreNodes_tree (hnodes.mem_iff.1 hx)
  obtain ⟨h3, h4⟩ := coreNodes_ids (n := n) (fun i hi => by simpa using (hids t ht).mem_iff.1 hi) (hg t ht) hj
  exact coreStep_pf hs (by simp only [hn]; exact h3) h4 hstep

/-! ### QuickRank -/

structure QrInv (s : QrState F) : Prop where
  pf : ParentFirst s.m
  node : 0 ≤ s.currNode
  stack : ∀ x ∈ s.stack, 0 ≤ x ∧ x ≤ s.currNode

theorem qrStep_inv {s s' : QrState F} {ev : XmlEvent F} (h : QrInv s) (e : qrStep s ev = .ok s') : QrInv s' := by
  unfold qrStep at e
  cases ev with
  | start tag attrs =>
    simp only at e
    split at e
    · obtain ⟨m1, h1, e⟩ := bind_ok e
      obtain ⟨w, -, e⟩ := bind_ok e
      obtain ⟨m2, h2, e⟩ := bind_ok e
      cases e
      have := h.node
      exact ⟨pf_setWeight (pf_setRoot h.pf h1) h2, by simp only; omega, fun x hx => by have := h.stack x hx; simp only; omega⟩
    · split at e
      · split at e
        · cases e
          refine ⟨h.pf, h.node, ?_⟩
          intro x hx
          simp only [List.mem_cons] at hx
          rcases hx with rfl | hx
          · exact ⟨h.node, le_refl _⟩
          · exact h.stack x hx
        · split at e
          · cases e
          · rename_i parent rest hst
            obtain ⟨m1, h1, e⟩ := bind_ok e
            cases e
            have hp := h.stack parent (by rw [hst]; simp)
            have hnode := h.node
            have pfl : ∀ m', setLeft s.m parent (s.currNode + 1) = .ok m' → ParentFirst m' :=
              fun m' hm => pf_setLeft h.pf hp.1 (by omega) hm
            have pfr : ∀ m', setRight s.m parent (s.currNode + 1) = .ok m' → ParentFirst m' :=
              fun m' hm => pf_setRight h.pf hp.1 (by omega) hm
            refine ⟨?_, by simp only; omega, ?_⟩
            · simp only
              split at h1
              · split at h1
                · exact pfl _ h1
                · exact pfr _ h1
              · exact pfr _ h1
            · intro x hx
              simp only [List.mem_cons] at hx
              rcases hx with rfl | rfl | hx
              · simp only; omega
              · simp only; omega
              · have := h.stack x (by rw [hst]; simp [hx])
                simp only; omega
      · cases e; exact h
  | finish tag text =>
    simp only at e
    split at e
    · split at e
      · cases e
      · rename_i x rest hst
        cases e
        exact ⟨h.pf, h.node, fun x hx => h.stack x (by rw [hst]; simp [hx])⟩
    · split at e
      · obtain ⟨f, -, e⟩ := bind_ok e
        obtain ⟨m1, h1, e⟩ := bind_ok e
        cases e
        exact ⟨pf_setFeature h.pf h1, h.node, h.stack⟩
      · split at e
        · obtain ⟨f, -, e⟩ := bind_ok e
          obtain ⟨m1, h1, e⟩ := bind_ok e
          cases e
          exact ⟨pf_setValue h.pf h1, h.node, h.stack⟩
        · cases e; exact h

theorem quickrank_parentFirst {zero minusOne : F} {fo : Forest F} {trees leaves : Nat} {shrinkage lr : F} {bs : Option F} {l : Loaded F}
    (e : quickrankLoad zero minusOne (docXml trees leaves shrinkage fo) lr bs = .ok l) : ParentFirst l.arrays := by
  unfold quickrankLoad at e
  obtain ⟨c, hc⟩ : ∃ c, qrCount (docXml trees leaves shrinkage fo) = c := ⟨_, rfl⟩
  rw [hc] at e
  obtain ⟨s, h1, h2⟩ := bind_ok e
  cases h2
  obtain ⟨info, he, hinfo, -⟩ := docXml_events trees leaves shrinkage fo
  rw [he, List.drop_succ_cons, List.drop_zero] at h1
  obtain ⟨s1, h3, h1⟩ := foldlM_append_ok h1
  rw [hinfo] at h3
  cases h3
  rw [List.foldlM_cons] at h1
  obtain ⟨s2, h4, h1⟩ := bind_ok h1
  have h5 : s2 = ⟨alloc zero minusOne c.1 c.2, -1, -1, []⟩ := by
    unfold qrStep at h4
    simp only [show ("ensemble" = "tree") = False by decide, show ("ensemble" = "split") = False by decide, if_false] at h4
    cases h4
    rfl
  subst h5
  cases fo with
  | nil =>
    simp only [forestXml, Xml.eventsList, List.nil_append, List.foldlM_cons, List.foldlM_nil] at h1
    obtain ⟨s3, h6, h1⟩ := bind_ok h1
    obtain ⟨s4, h7, h1⟩ := bind_ok h1
    cases h1
    have : ∀ (s s' : QrState F) tag, tag = "ensemble" ∨ tag = "ranker" → qrStep s (.finish tag none) = .ok s' → s' = s := by
      intro s s' tag htag hs
      unfold qrStep at hs
      rcases htag with rfl | rfl
      · cases hs; rfl
      · cases hs; rfl
    rw [this _ _ _ (Or.inr rfl) h7, this _ _ _ (Or.inl rfl) h6]
    exact parentFirst_alloc _ _ _ _
  | cons p fo =>
    obtain ⟨t, w⟩ := p
    rw [forestXml, Xml.eventsList, Xml.events] at h1
    simp only [List.cons_append] at h1
    rw [List.foldlM_cons] at h1
    obtain ⟨s3, h6, h1⟩ := bind_ok h1
    have h7 : QrInv s3 := by
      unfold qrStep at h6
      simp only [if_true] at h6
      obtain ⟨m1, g1, h6⟩ := bind_ok h6
      obtain ⟨w', -, h6⟩ := bind_ok h6
      obtain ⟨m2, g2, h6⟩ := bind_ok h6
      cases h6
      exact ⟨pf_setWeight (pf_setRoot (parentFirst_alloc _ _ _ _) g1) g2, by simp, by simp⟩
    exact (foldlM_inv (P := QrInv) (fun ev _ s s' hs hev => qrStep_inv hs hev) h7 h1).pf

end Ensemble
end Verif
