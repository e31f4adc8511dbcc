/-
Lemmas on feature importance: the loop over the nodes of a tree.
-/
import Verif.Lemmas.Feature
import Verif.Lemmas.FeatureSpec

namespace Verif
open Ensemble Spec
variable {K : Type} [Field K] [LinearOrder K] [IsStrictOrderedRing K]

theorem isLeafC_encodes {m : Ensemble K} {i : Nat} {t : Spec.Tree K} {s : List Nat} (h : Encodes m i t s) :
    isLeafC m (i : Int) = .ok (match t with | .leaf _ => true | .node .. => false) := by
  cases h with
  | leaf hl hr hf hv => exact isLeafC_leaf hl hr
  | node hl hr hf hv el er => exact isLeafC_inner hl

theorem encodes_lt {m : Ensemble K} {i : Nat} {t : Spec.Tree K} {s : List Nat} (h : Encodes m i t s) : i < m.left.length := by
  cases h with
  | leaf hl hr hf hv => exact (List.getElem?_eq_some_iff.1 hl).1
  | node hl hr hf hv el er => exact (List.getElem?_eq_some_iff.1 hl).1

/-- The queue entry of a child: none for a leaf or less than two documents. -/
def childEntry (i start : Nat) (t : Spec.Tree K) (D : List Nat) : List FiNode :=
  match t with
  | .leaf _ => []
  | .node .. => if 2 ≤ D.length then [⟨i, start, start + D.length - 1⟩] else []

/-- Counts after visiting nodes with the features `fs`. -/
def addCounts (c : Nat → Nat) (fs : List Nat) (f : Nat) : Nat := c f + fs.count f

/-- Importances after the gains `gs`. -/
def addImps (n : Nat) (g : Nat → K) (gs : List (Nat × K)) (f : Nat) : K := g f + importance gs n f

/-- The state as functions. -/
def fiState (nf n : Nat) (split : List Nat) (pf g : Nat → K) (c : Nat → Nat) : FiState K :=
  ⟨split, (List.range n).map pf, (List.range nf).map g, (List.range nf).map (fun i => c i % 2 ^ 16)⟩

theorem fiPush_child {m : Ensemble K} {i start stop : Nat} {t : Spec.Tree K} {s : List Nat} (h : Encodes m i t s)
    (hsmall : m.left.length < 2 ^ 31) {D : List Nat} (hstop : 2 ≤ D.length → stop = start + D.length - 1) (test : Bool)
    (htest : test = decide (2 ≤ D.length)) (queue : List FiNode) :
    fiPush m (i : Int) start stop test queue = .ok (childEntry i start t D ++ queue) := by
  have hi := encodes_lt h
  unfold fiPush
  rw [isLeafC_encodes h]
  simp only [bind, Except.bind]
  cases t with
  | leaf v => simp [childEntry, pure, Except.pure]
  | node f th l r =>
    by_cases hc : 2 ≤ D.length
    · rw [u32_nat (by omega)]
      simp [childEntry, hc, htest, hstop hc, pure, Except.pure]
    · simp [childEntry, hc, htest, pure, Except.pure]

theorem split_of_perm {left : Nat → K → Nat → Bool} {f : Nat} {th : K} {L R M : List Nat} (hp : (L ++ R).Perm M) (hL : ∀ d ∈ L, left f th d = true)
    (hR : ∀ d ∈ R, left f th d = false) : L.Perm (goLeft left f th M) ∧ R.Perm (goRight left f th M) := by
  have h1 : goLeft left f th (L ++ R) = L := by
    unfold goLeft
    rw [List.filter_append, List.filter_eq_self.2 (fun d hd => hL d hd), List.filter_eq_nil_iff.2 (fun d hd => by rw [hR d hd]; simp), List.append_nil]
  have h2 : goRight left f th (L ++ R) = R := by
    unfold goRight
    rw [List.filter_append, List.filter_eq_nil_iff.2 (fun d hd => by rw [hL d hd]; simp), List.filter_eq_self.2 (fun d hd => by rw [hR d hd]; rfl),
      List.nil_append]
  constructor
  · conv_lhs => rw [← h1]
    exact goLeft_perm hp f th
  · conv_lhs => rw [← h2]
    exact goRight_perm hp f th

theorem exOkBind {α β ε : Type} (x : α) (f : α → Except ε β) : (Except.ok x >>= f) = f x := rfl

theorem exPure {α ε : Type} (x : α) : (pure x : Except ε α) = .ok x := rfl

/-- One round of the loop. -/
theorem fiStep_spec {m : Ensemble K} {X : List K} {nf n : Nat} {left : Nat → K → Nat → Bool} (hdocs : Docs X nf n left)
    (hsmall : m.left.length < 2 ^ 31) (yf : Nat → K) {i l r f : Nat} {th : K} {tl tr : Spec.Tree K} {sl sr : List Nat}
    (hl : m.left[i]? = some (l : Int)) (hr : m.right[i]? = some (r : Int)) (hf : m.feature[i]? = some (f : Int)) (hv : m.value[i]? = some th)
    (el : Encodes m l tl sl) (er : Encodes m r tr sr) (hfn : f < nf) (A M B : List Nat) (hlen : (A ++ (M ++ B)).length = n)
    (hM : ∀ d ∈ M, d < n) (hnd : M.Nodup) (hne : M ≠ []) (hsafe : A.length = 0 → goLeft left f th M ≠ []) (pf g : Nat → K) (c : Nat → Nat)
    (hpf : ∀ d ∈ M, pf d = mean yf M) :
    ∃ L R, (L ++ R).Perm M ∧ L.Perm (goLeft left f th M) ∧ R.Perm (goRight left f th M) ∧ ∀ queue,
      fiStep m X nf n ((List.range n).map yf) (fiState nf n (A ++ (M ++ B)) pf g c) ⟨i, A.length, A.length + M.length - 1⟩ queue =
        .ok (fiState nf n (A ++ (L ++ (R ++ B))) (fun d => if d ∈ R then mean yf R else if d ∈ L then mean yf L else pf d)
          (addImps n g [(f, sse yf M - (sse yf (goLeft left f th M) + sse yf (goRight left f th M)))]) (addCounts c [f]),
          childEntry r (A.length + L.length) tr R ++ (childEntry l A.length tl L ++ queue)) := by
  have hMlen : 0 < M.length := List.length_pos_iff.2 hne
  have hnS := hdocs.nSmall
  have hAn : A.length + M.length ≤ n := by simp at hlen; omega
  have hi : i < 2 ^ 31 := lt_of_lt_of_le (List.getElem?_eq_some_iff.1 hl).1 hsmall.le
  obtain ⟨L, R, hpart, hperm, hL, hR⟩ := fiPartition_spec hdocs hfn th yf M.length M A B 0 0 rfl hM
  obtain ⟨hLp, hRp⟩ := split_of_perm hperm hL hR
  refine ⟨L, R, hperm, hLp, hRp, ?_⟩
  intro queue
  have hLR : L.length + R.length = M.length := by rw [← hperm.length_eq, List.length_append]
  have hndLR : (L ++ R).Nodup := hperm.nodup_iff.2 hnd
  have hLM : ∀ d ∈ L, d ∈ M := fun d hd => hperm.subset (List.mem_append_left _ hd)
  have hRM : ∀ d ∈ R, d ∈ M := fun d hd => hperm.subset (List.mem_append_right _ hd)
  have hend : 0 ≤ (A.length : Int) + L.length - 1 := by
    by_cases hA : A.length = 0
    · have := hsafe hA
      have h1 : 0 < L.length := by
        rw [hLp.length_eq]
        exact List.length_pos_iff.2 this
      omega
    · omega
  have hu : u32 ((A.length : Int) + L.length - 1) = A.length + L.length - 1 := by
    rw [u32_eq hend (by omega)]
    omega
  unfold fiStep fiState
  simp only
  rw [i32_eq hi, rd_ok hf, exOkBind, rd_ok hv, exOkBind, incAt_range c hfn, exOkBind]
  rw [i32_eq (show A.length < 2 ^ 31 by omega), i32_eq (show A.length + M.length - 1 < 2 ^ 31 by omega)]
  have hfuel : (((A.length + M.length - 1 : Nat) : Int) + 1 - (A.length : Int)).toNat = M.length := by omega
  have hstop : ((A.length + M.length - 1 : Nat) : Int) = (A.length : Int) + M.length - 1 := by omega
  rw [hfuel, hstop, hpart]
  clear hfuel hstop
  rw [exOkBind]
  simp only
  have hld : i32 (u32 ((A.length : Int) + L.length - 1 - (A.length : Int) + 1)) = (L.length : Int) := by
    rw [show (A.length : Int) + L.length - 1 - (A.length : Int) + 1 = (L.length : Int) by omega, u32_nat (by omega), i32_eq (by omega)]
  rw [hld]
  clear hld
  have hrd : i32 (u32 ((A.length : Int) + M.length - 1 - ((A.length : Int) + L.length - 1))) = (R.length : Int) := by
    rw [show (A.length : Int) + M.length - 1 - ((A.length : Int) + L.length - 1) = (R.length : Int) by omega, u32_nat (by omega), i32_eq (by omega)]
  rw [hrd]
  clear hrd
  have hmL : fiMean (0 + (L.map yf).sum) (L.length : Int) = mean yf L := by
    unfold fiMean mean
    rw [zero_add]
    by_cases h0 : (L.length : Int) > 0
    · rw [if_pos h0]; push_cast; rfl
    · rw [if_neg h0]
      have : L = [] := List.length_eq_zero_iff.1 (by omega)
      simp [this]
  have hmR : fiMean (0 + (R.map yf).sum) (R.length : Int) = mean yf R := by
    unfold fiMean mean
    rw [zero_add]
    by_cases h0 : (R.length : Int) > 0
    · rw [if_pos h0]; push_cast; rfl
    · rw [if_neg h0]
      have : R = [] := List.length_eq_zero_iff.1 (by omega)
      simp [this]
  rw [hmL, hmR]
  have hrounds : A.length + M.length - 1 + 1 - A.length = L.length + (R.length + 0) := by omega
  rw [hrounds]
  have hnd1 : L.Nodup := (List.nodup_append.1 hndLR).1
  have hnd2 : R.Nodup := (List.nodup_append.1 hndLR).2.1
  have hdisj : ∀ d ∈ R, d ∉ L := fun d hd hdl => (List.nodup_append.1 hndLR).2.2 d hdl d hd rfl
  rw [fiGain_segment (n := n) (q := mean yf L) yf (A ++ (L ++ R) ++ B) (R.length + 0) L A (R ++ B) pf 0 (by simp)
    (fun d hd => hM d (hLM d hd)) hnd1 (by
      intro j h1 h2
      rw [hu, if_pos (by omega)])]
  have hseg2 := fiGain_segment (n := n) (endId := (A.length : Int) + L.length - 1) (mL := mean yf L) (mR := mean yf R) (q := mean yf R) yf
    (A ++ (L ++ R) ++ B) 0 R (A ++ L) B
    (fun d => if d ∈ L then mean yf L else pf d) (0 + (L.map (fun d => (yf d - pf d) ^ 2 - (yf d - mean yf L) ^ 2)).sum) (by simp)
    (fun d hd => hM d (hRM d hd)) hnd2 (by
      intro j h1 h2
      rw [List.length_append] at h1
      rw [hu, if_neg (by omega)])
  rw [List.length_append] at hseg2
  rw [hseg2, fiGain, exPure, exOkBind]
  simp only
  have hdelta : (0 + (L.map (fun d => (yf d - pf d) ^ 2 - (yf d - mean yf L) ^ 2)).sum +
      (R.map (fun d => (yf d - (if d ∈ L then mean yf L else pf d)) ^ 2 - (yf d - mean yf R) ^ 2)).sum) =
      sse yf M - (sse yf (goLeft left f th M) + sse yf (goRight left f th M)) := by
    have e1 : (L.map (fun d => (yf d - pf d) ^ 2 - (yf d - mean yf L) ^ 2)) = L.map (fun d => (yf d - mean yf M) ^ 2 - (yf d - mean yf L) ^ 2) :=
      List.map_congr_left (fun d hd => by rw [hpf d (hLM d hd)])
    have e2 : (R.map (fun d => (yf d - (if d ∈ L then mean yf L else pf d)) ^ 2 - (yf d - mean yf R) ^ 2)) =
        R.map (fun d => (yf d - mean yf M) ^ 2 - (yf d - mean yf R) ^ 2) :=
      List.map_congr_left (fun d hd => by rw [if_neg (hdisj d hd), hpf d (hRM d hd)])
    have hsub : ∀ (D : List Nat) (a b : Nat → K), (D.map (fun d => a d - b d)).sum = (D.map a).sum - (D.map b).sum := by
      intro D a b
      induction D with
      | nil => simp
      | cons x D ih => simp only [List.map_cons, List.sum_cons, ih]; ring
    rw [e1, e2, hsub, hsub, ← sse_perm hLp, ← sse_perm hRp]
    have e3 : sse yf M = (L.map (fun d => (yf d - mean yf M) ^ 2)).sum + (R.map (fun d => (yf d - mean yf M) ^ 2)).sum := by
      conv_lhs => unfold sse
      rw [← (hperm.map _).sum_eq, List.map_append, List.sum_append]
    rw [e3]
    unfold sse
    ring
  rw [hdelta, addAt_range g _ hfn, exOkBind, rd_ok hl, exOkBind]
  rw [hu, fiPush_child el hsmall (D := L) (fun _ => rfl) _ (by
    have : (A.length + L.length - 1 > A.length) ↔ 2 ≤ L.length := by omega
    simp [this])]
  rw [exOkBind, rd_ok hr, exOkBind]
  have hu2 : u32 ((A.length : Int) + L.length - 1 + 1) = A.length + L.length := by
    rw [show (A.length : Int) + L.length - 1 + 1 = ((A.length + L.length : Nat) : Int) by push_cast; ring]
    exact u32_nat (by omega)
  rw [hu2, fiPush_child er hsmall (D := R) (fun _ => by omega) _ (by
    have : (A.length + M.length - 1 > A.length + L.length) ↔ 2 ≤ R.length := by omega
    simp [this])]
  rw [exOkBind, exPure]
  simp only [Except.ok.injEq, Prod.mk.injEq, FiState.mk.injEq]
  refine ⟨⟨by simp, ?_, ?_, ?_⟩, trivial⟩
  · trivial
  · apply List.map_congr_left
    intro j _
    unfold addImps
    rw [importance_cons]
    have : importance ([] : List (Nat × K)) n j = 0 := by simp [importance]
    rw [this, add_zero]
    by_cases hj : j = f
    · rw [if_pos hj, if_pos hj, hj]
    · rw [if_neg hj, if_neg hj, add_zero]
  · apply List.map_congr_left
    intro j _
    unfold addCounts
    by_cases hj : j = f
    · rw [if_pos hj, hj]; simp
    · rw [if_neg hj]
      simp [Ne.symm hj]

theorem addImps_append (n : Nat) (g : Nat → K) (a b : List (Nat × K)) : addImps n (addImps n g a) b = addImps n g (a ++ b) := by
  funext f
  unfold addImps
  rw [importance_append, add_assoc]

theorem addImps_zero (n : Nat) (g : Nat → K) {a : List (Nat × K)} (h : ∀ x ∈ a, x.2 = 0) : addImps n g a = g := by
  funext f
  unfold addImps
  rw [importance_zero h, add_zero]

theorem addCounts_append (c : Nat → Nat) (a b : List Nat) : addCounts (addCounts c a) b = addCounts c (a ++ b) := by
  funext f
  unfold addCounts
  rw [List.count_append, Nat.add_assoc]

theorem addCounts_nil (c : Nat → Nat) : addCounts c [] = c := by
  funext f
  simp [addCounts]

theorem addImps_perm (n : Nat) (g : Nat → K) {a b : List (Nat × K)} (h : a.Perm b) : addImps n g a = addImps n g b := by
  funext f
  unfold addImps importance
  rw [((h.filter _).map _).sum_eq]

theorem addCounts_perm (c : Nat → Nat) {a b : List Nat} (h : a.Perm b) : addCounts c a = addCounts c b := by
  funext f
  unfold addCounts
  rw [h.count_eq]

/-- What the loop does with a node of the queue: it evaluates the subtree, touching only its documents. -/
def NodeDone (m : Ensemble K) (X : List K) (nf n : Nat) (left : Nat → K → Nat → Bool) (yf : Nat → K) (i : Nat) (t : Spec.Tree K) : Prop :=
  ∀ (A M B : List Nat) (pf g : Nat → K) (c : Nat → Nat), t.isInner = true → (A ++ (M ++ B)).length = n → (∀ d ∈ M, d < n) → M.Nodup → M ≠ [] →
    NoEmptyLeft left t M A.length → (∀ d ∈ M, pf d = mean yf M) →
    ∃ (M' : List Nat) (pf' : Nat → K) (k : Nat), M'.Perm M ∧ k ≤ t.numNodes ∧
      (∀ fuel queue, fiLoop m X nf n ((List.range n).map yf) (fuel + k) (fiState nf n (A ++ (M ++ B)) pf g c)
          (⟨i, A.length, A.length + M.length - 1⟩ :: queue) =
        fiLoop m X nf n ((List.range n).map yf) fuel (fiState nf n (A ++ (M' ++ B)) pf' (addImps n g (gains left yf t M))
          (addCounts c (visitedFeatures left t M))) queue) ∧
      (∀ d ∈ M, pf' d = fitted left yf t M d) ∧ (∀ d, d ∉ M → pf' d = pf d)

/-- The same for a child, which is in the queue only if it is no leaf and has at least two documents. -/
theorem child_done {m : Ensemble K} {X : List K} {nf n : Nat} {left : Nat → K → Nat → Bool} {yf : Nat → K} {i : Nat} {t : Spec.Tree K}
    (h : NodeDone m X nf n left yf i t) (A M B : List Nat) (pf g : Nat → K) (c : Nat → Nat) (hlen : (A ++ (M ++ B)).length = n)
    (hM : ∀ d ∈ M, d < n) (hnd : M.Nodup) (hsafe : 2 ≤ M.length → NoEmptyLeft left t M A.length) (hpf : ∀ d ∈ M, pf d = mean yf M) :
    ∃ (M' : List Nat) (pf' : Nat → K) (k : Nat), M'.Perm M ∧ k ≤ t.numNodes ∧
      (∀ fuel queue, fiLoop m X nf n ((List.range n).map yf) (fuel + k) (fiState nf n (A ++ (M ++ B)) pf g c)
          (childEntry i A.length t M ++ queue) =
        fiLoop m X nf n ((List.range n).map yf) fuel (fiState nf n (A ++ (M' ++ B)) pf' (addImps n g (gains left yf t M))
          (addCounts c (if 2 ≤ M.length then visitedFeatures left t M else []))) queue) ∧
      (∀ d ∈ M, pf' d = fitted left yf t M d) ∧ (∀ d, d ∉ M → pf' d = pf d) := by
  by_cases hc : 2 ≤ M.length
  · cases t with
    | leaf v =>
      refine ⟨M, pf, 0, List.Perm.refl _, Nat.zero_le _, ?_, hpf, fun _ _ => rfl⟩
      intro fuel queue
      rw [if_pos hc, visitedFeatures, addCounts_nil, gains, addImps_zero n g (by simp)]
      rfl
    | node f th l r =>
      obtain ⟨M', pf', k, h1, h2, h3, h4, h5⟩ := h A M B pf g c rfl hlen hM hnd (by intro h0; simp [h0] at hc) (hsafe hc) hpf
      refine ⟨M', pf', k, h1, h2, ?_, h4, h5⟩
      intro fuel queue
      rw [if_pos hc, ← h3]
      simp [childEntry, hc]
  · have hz := gains_small (left := left) (y := yf) t (D := M) (by omega)
    refine ⟨M, pf, 0, List.Perm.refl _, Nat.zero_le _, ?_, ?_, fun _ _ => rfl⟩
    · intro fuel queue
      rw [if_neg hc, addCounts_nil, addImps_zero n g hz]
      cases t with
      | leaf v => rfl
      | node f th l r => simp [childEntry, hc]
    · intro d hd
      rw [hpf d hd]
      match M, hd, hc with
      | [x], hd, _ =>
        rw [List.mem_singleton] at hd
        subst hd
        rw [fitted_single]
        simp [mean]
      | _ :: _ :: _, _, hc => exact absurd (by simp) hc

theorem node_done {m : Ensemble K} {X : List K} {nf n : Nat} {left : Nat → K → Nat → Bool} (hdocs : Docs X nf n left)
    (hsmall : m.left.length < 2 ^ 31) (yf : Nat → K) {i : Nat} {t : Spec.Tree K} {s : List Nat} (h : Encodes m i t s) :
    (∀ f ∈ t.features, f < nf) → NodeDone m X nf n left yf i t := by
  induction h with
  | leaf => intro _ A M B pf g c hin; simp [Spec.Tree.isInner] at hin
  | @node i f l r th tl tr sl sr hl hr hf hv el er ihl ihr =>
    intro hfeat A M B pf g c _ hlen hM hnd hne hsafe hpf
    have hdl := ihl (fun x hx => hfeat x (by simp [Spec.Tree.features, hx]))
    have hdr := ihr (fun x hx => hfeat x (by simp [Spec.Tree.features, hx]))
    obtain ⟨hs1, hs2, hs3⟩ := hsafe
    obtain ⟨L, R, hperm, hLp, hRp, hstep⟩ := fiStep_spec hdocs hsmall yf hl hr hf hv el er (hfeat f (by simp [Spec.Tree.features])) A M B hlen hM hnd
      hne hs1 pf g c hpf
    have hndLR : (L ++ R).Nodup := hperm.nodup_iff.2 hnd
    have hLM : ∀ d ∈ L, d ∈ M := fun d hd => hperm.subset (List.mem_append_left _ hd)
    have hRM : ∀ d ∈ R, d ∈ M := fun d hd => hperm.subset (List.mem_append_right _ hd)
    have hdisj : ∀ d ∈ R, d ∉ L := fun d hd hdl => (List.nodup_append.1 hndLR).2.2 d hdl d hd rfl
    have hLR : L.length + R.length = M.length := by rw [← hperm.length_eq, List.length_append]
    obtain ⟨pf1, hpf1⟩ : ∃ pf1 : Nat → K, (fun d => if d ∈ R then mean yf R else if d ∈ L then mean yf L else pf d) = pf1 := ⟨_, rfl⟩
    obtain ⟨g1, hg1⟩ : ∃ g1, addImps n g [(f, sse yf M - (sse yf (goLeft left f th M) + sse yf (goRight left f th M)))] = g1 := ⟨_, rfl⟩
    -- the right child first
    obtain ⟨R', pf2, k2, hR', hk2, e2, hfit2, hout2⟩ := child_done hdr (A ++ L) R B pf1 g1 (addCounts c [f])
      (by simp at hlen ⊢; omega) (fun d hd => hM d (hRM d hd)) (List.nodup_append.1 hndLR).2.1
      (fun h2 => by
        rw [List.length_append, hLp.length_eq]
        exact noEmptyLeft_perm tr hRp.symm (hs3 (by rw [← hRp.length_eq]; exact h2)))
      (fun d hd => by rw [← hpf1]; simp [hd])
    obtain ⟨L', pf3, k3, hL', hk3, e3, hfit3, hout3⟩ := child_done hdl A L (R' ++ B) pf2 (addImps n g1 (gains left yf tr R))
      (addCounts (addCounts c [f]) (if 2 ≤ R.length then visitedFeatures left tr R else []))
      (by have := hR'.length_eq; simp at hlen ⊢; omega) (fun d hd => hM d (hLM d hd)) (List.nodup_append.1 hndLR).1
      (fun h2 => noEmptyLeft_perm tl hLp.symm (hs2 (by rw [← hLp.length_eq]; exact h2)))
      (fun d hd => by
        have hdR : d ∉ R := fun hr => hdisj d hr hd
        rw [hout2 d hdR, ← hpf1]
        simp [hd, hdR])
    refine ⟨L' ++ R', pf3, k3 + k2 + 1, (hL'.append hR').trans hperm, by rw [Spec.Tree.numNodes]; omega, ?_, ?_, ?_⟩
    · intro fuel queue
      rw [show fuel + (k3 + k2 + 1) = (fuel + k3 + k2) + 1 by omega, fiLoop, hstep queue, exOkBind]
      simp only
      rw [hpf1, hg1]
      have e2' := e2 (fuel + k3) (childEntry l A.length tl L ++ queue)
      rw [List.length_append, List.append_assoc] at e2'
      rw [e2']
      have e3' := e3 fuel queue
      rw [List.append_assoc, e3']
      rw [← hg1, addImps_append, addImps_append, addCounts_append, addCounts_append, List.append_assoc]
      have hgain : addImps n g ([(f, sse yf M - (sse yf (goLeft left f th M) + sse yf (goRight left f th M)))] ++
          (gains left yf tr R ++ gains left yf tl L)) = addImps n g (gains left yf (.node f th tl tr) M) := by
        rw [gains, gains_perm tl hLp, gains_perm tr hRp]
        rw [List.singleton_append]
        exact addImps_perm n g (List.Perm.cons _ List.perm_append_comm)
      have hcount : addCounts c ([f] ++ ((if 2 ≤ R.length then visitedFeatures left tr R else []) ++
          (if 2 ≤ L.length then visitedFeatures left tl L else []))) = addCounts c (visitedFeatures left (.node f th tl tr) M) := by
        rw [visitedFeatures, visitedFeatures_perm tl hLp, visitedFeatures_perm tr hRp, hLp.length_eq, hRp.length_eq]
        rw [List.singleton_append]
        exact addCounts_perm c (List.Perm.cons _ List.perm_append_comm)
      rw [hgain, hcount]
    · intro d hd
      rw [fitted]
      rcases List.mem_append.1 (hperm.symm.subset hd) with hdL | hdR
      · have : left f th d = true := by
          have := hLp.subset hdL
          exact (List.mem_filter.1 this).2
        rw [if_pos this, hfit3 d hdL, fitted_perm tl hLp]
      · have : left f th d = false := by
          have := (List.mem_filter.1 (hRp.subset hdR)).2
          simpa using this
        rw [this, if_neg (by simp), hout3 d (hdisj d hdR), hfit2 d hdR, fitted_perm tr hRp]
    · intro d hd
      have h1 : d ∉ L := fun h => hd (hLM d h)
      have h2 : d ∉ R := fun h => hd (hRM d h)
      rw [hout3 d h1, hout2 d h2, ← hpf1]
      simp [h1, h2]

end Verif
