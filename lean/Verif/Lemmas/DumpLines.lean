/-
Lemmas for the loaders of text dumps on any lines: when a turn of the loop fails.
-/
import Verif.Lemmas.LoadDump
import Verif.Spec.DumpLines

namespace Verif
open Spec
namespace Ensemble
variable {F : Type}

/-- The lengths of the arrays, and a queue of nodes in the arrays. -/
structure Room (s : DumpState F) (N T : Nat) : Prop where
  len : NodeLen s.m N
  root : s.m.root.length = T
  weight : s.m.weight.length = T
  queue : ∀ p ∈ s.queue, p.1 < N

/-- The position of a node with number `id` in its line. -/
def position (cfg : DumpCfg F) (s : DumpState F) (id : Nat) : Nat := (if cfg.fileIds then id else s.numNodes) + s.rootNode

theorem step_node {cfg : DumpCfg F} {s : DumpState F} {N T : Nat} (h : Room s N T) {x : DumpLine F} {id : Nat} (hx : nodeNumber x = some id)
    (hn : position cfg s id < N) : ∃ s', dumpStep cfg s x = .ok s' ∧ Room s' N T ∧ s'.queue.length = expected s.queue.length [x] ∧
      s'.rootNode = s.rootNode ∧ s'.numNodes = s.numNodes + 1 := by
  cases x with
  | node id' f t =>
    cases hx
    generalize hpos : position cfg s id = n at hn
    have hpos' : (if cfg.fileIds then id else s.numNodes) + s.rootNode = n := hpos
    let m0 : Ensemble F := { s.m with feature := s.m.feature.set n (castInt16 f), value := s.m.value.set n (cfg.threshold t) }
    have hlen0 : NodeLen m0 N := ⟨h.len.left, h.len.right, by simp [m0, h.len.value], by simp [m0, h.len.feature]⟩
    refine ⟨⟨linked m0 s.queue n, s.learningRate, s.baseScore, s.rootNode, s.numNodes + 1, (n, true) :: (n, false) :: s.queue.tail⟩, ?_, ?_, ?_, rfl, rfl⟩
    · simp only [dumpStep, hpos']
      rw [show setFeature s.m (n : Int) f = .ok { s.m with feature := s.m.feature.set n (castInt16 f) } by
        simp only [setFeature, pySet_ok _ (show n < s.m.feature.length by rw [h.len.feature]; exact hn), bind, Except.bind]; rfl]
      simp only [bind, Except.bind]
      rw [setValue_ok _ (by show n < s.m.value.length; rw [h.len.value]; exact hn)]
      simp only []
      rw [linkParent_ok (m := m0) hlen0 s.queue n (fun p hp => h.queue p (List.mem_of_mem_head? hp))]
      rfl
    · obtain ⟨-, -, h3, h4⟩ := linked_fields m0 s.queue n
      refine ⟨linked_len hlen0 _ _, by rw [h3]; exact h.root, by rw [h4]; exact h.weight, ?_⟩
      intro p hp
      simp only [List.mem_cons] at hp
      rcases hp with rfl | rfl | hp
      · exact hn
      · exact hn
      · exact h.queue p (List.mem_of_mem_tail hp)
    · simp [expected]
  | leaf id' v =>
    cases hx
    generalize hpos : position cfg s id = n at hn
    have hpos' : (if cfg.fileIds then id else s.numNodes) + s.rootNode = n := hpos
    let m0 : Ensemble F := { s.m with value := s.m.value.set n v }
    have hlen0 : NodeLen m0 N := ⟨h.len.left, h.len.right, by simp [m0, h.len.value], h.len.feature⟩
    refine ⟨⟨linked m0 s.queue n, s.learningRate, s.baseScore, s.rootNode, s.numNodes + 1, s.queue.tail⟩, ?_, ?_, ?_, rfl, rfl⟩
    · simp only [dumpStep, hpos']
      rw [setValue_ok _ (by show n < s.m.value.length; rw [h.len.value]; exact hn)]
      simp only [bind, Except.bind]
      rw [linkParent_ok (m := m0) hlen0 s.queue n (fun p hp => h.queue p (List.mem_of_mem_head? hp))]
      rfl
    · obtain ⟨-, -, h3, h4⟩ := linked_fields m0 s.queue n
      exact ⟨linked_len hlen0 _ _, by rw [h3]; exact h.root, by rw [h4]; exact h.weight, fun p hp => h.queue p (List.mem_of_mem_tail hp)⟩
    · simp [expected]
  | tree | baseScore | learningRate | other => cases hx

theorem step_node_error {cfg : DumpCfg F} {s : DumpState F} {N T : Nat} (h : Room s N T) {x : DumpLine F} {id : Nat} (hx : nodeNumber x = some id)
    (hn : N ≤ position cfg s id) : dumpStep cfg s x = .error .indexError := by
  cases x with
  | node id' f t =>
    cases hx
    simp only [dumpStep, show (if cfg.fileIds then id else s.numNodes) + s.rootNode = position cfg s id from rfl, setFeature]
    rw [pySet_large _ (by rw [h.len.feature]; exact_mod_cast hn)]
    rfl
  | leaf id' v =>
    cases hx
    simp only [dumpStep, show (if cfg.fileIds then id else s.numNodes) + s.rootNode = position cfg s id from rfl, setValue]
    rw [pySet_large _ (by rw [h.len.value]; exact_mod_cast hn)]
    rfl
  | tree | baseScore | learningRate | other => cases hx

theorem step_tree {cfg : DumpCfg F} {s : DumpState F} {N T i : Nat} (h : Room s N T) (hq : s.queue.length = 0) (hi : i < T) :
    ∃ s', dumpStep cfg s (.tree i) = .ok s' ∧ Room s' N T ∧ s'.queue = s.queue ∧ s'.rootNode = s.rootNode + s.numNodes ∧ s'.numNodes = 0 := by
  have hq' : s.queue = [] := List.length_eq_zero_iff.1 hq
  refine ⟨⟨{ s.m with root := s.m.root.set i ((s.rootNode + s.numNodes : Nat) : Int), weight := s.m.weight.set i cfg.one }, s.learningRate, s.baseScore,
    s.rootNode + s.numNodes, 0, s.queue⟩, ?_, ?_, rfl, rfl, rfl⟩
  · simp only [dumpStep, hq', ↓reduceIte]
    rw [setRoot_ok _ (by rw [h.root]; exact hi)]
    simp only [bind, Except.bind]
    rw [setWeight_ok _ (by show i < s.m.weight.length; rw [h.weight]; exact hi)]
    simp [pure, Except.pure, hq']
  · exact ⟨⟨h.len.left, h.len.right, h.len.value, h.len.feature⟩, by simp [h.root], by simp [h.weight], h.queue⟩

theorem step_tree_error {cfg : DumpCfg F} {s : DumpState F} {N T i : Nat} (h : Room s N T) (hbad : ¬ (s.queue.length = 0 ∧ i < T)) :
    dumpStep cfg s (.tree i) = .error (if s.queue.length = 0 then .indexError else .assertionError) := by
  by_cases hq : s.queue = []
  · have hi : T ≤ i := by
      by_contra hc
      exact hbad ⟨by simp [hq], by omega⟩
    simp only [dumpStep, hq, ↓reduceIte, setRoot]
    rw [pySet_large _ (by rw [h.root]; exact_mod_cast hi)]
    simp [bind, Except.bind]
  · simp [dumpStep, hq]

theorem step_other {cfg : DumpCfg F} {s : DumpState F} {N T : Nat} (h : Room s N T) {x : DumpLine F} (hx : nodeNumber x = none) (ht : treeNumber x = none) :
    ∃ s', dumpStep cfg s x = .ok s' ∧ Room s' N T ∧ s'.queue = s.queue ∧ s'.rootNode = s.rootNode ∧ s'.numNodes = s.numNodes := by
  cases x with
  | tree | node | leaf => simp [nodeNumber, treeNumber] at hx ht
  | other => exact ⟨s, rfl, h, rfl, rfl, rfl⟩
  | baseScore v | learningRate v =>
    simp only [dumpStep]
    split
    · exact ⟨_, rfl, ⟨h.len, h.root, h.weight, h.queue⟩, rfl, rfl, rfl⟩
    · exact ⟨_, rfl, h, rfl, rfl, rfl⟩

theorem expected_append (n : Nat) (p q : List (DumpLine F)) : expected n (p ++ q) = expected (expected n p) q := by
  induction p generalizing n with
  | nil => rfl
  | cons x p ih => cases x <;> simp only [List.cons_append, expected, ih]

theorem split_cons {A : Type} {x : A} {ls : List A} {P : List A → A → Prop} :
    (∀ p y r, x :: ls = p ++ y :: r → P p y) ↔ P [] x ∧ ∀ p y r, ls = p ++ y :: r → P (x :: p) y := by
  constructor
  · intro h
    exact ⟨h [] x ls rfl, fun p y r e => h (x :: p) y r (by rw [e]; rfl)⟩
  · rintro ⟨h1, h2⟩ p y r e
    cases p with
    | nil =>
      simp only [List.nil_append, List.cons.injEq] at e
      rw [← e.1]
      exact h1
    | cons z p =>
      simp only [List.cons_append, List.cons.injEq] at e
      rw [← e.1]
      exact h2 p y r e.2

/-- What a line has to be after the lines `p`, for a loop that began with `q` expected children and `old` and `new` nodes. -/
def LineFits (fileIds : Bool) (N T q old new : Nat) (p : List (DumpLine F)) (x : DumpLine F) : Prop :=
  (∀ i, treeNumber x = some i → expected q p = 0 ∧ i < T) ∧ (fileIds = true → ∀ id, nodeNumber x = some id → id + earlier old new p < N)

theorem fold_ok (cfg : DumpCfg F) {N T : Nat} : ∀ (ls : List (DumpLine F)) (s : DumpState F), Room s N T →
    s.rootNode + s.numNodes + nodeLineCount ls ≤ N →
    ((∃ s', ls.foldlM (dumpStep cfg) s = .ok s') ↔ ∀ p x r, ls = p ++ x :: r → LineFits cfg.fileIds N T s.queue.length s.rootNode s.numNodes p x) := by
  intro ls
  induction ls with
  | nil => exact fun s _ _ => ⟨fun _ p x r e => (by simp at e), fun _ => ⟨s, rfl⟩⟩
  | cons x ls ih =>
    intro s h hN
    rw [split_cons, List.foldlM_cons]
    cases hx : nodeNumber x with
    | some id =>
      have ht : treeNumber x = none := by cases x <;> simp_all [nodeNumber, treeNumber]
      have hcount : nodeLineCount (x :: ls) = nodeLineCount ls + 1 := by simp [nodeLineCount, hx]
      by_cases hn : position cfg s id < N
      · obtain ⟨s', e1, e2, e3, e4, e5⟩ := step_node (cfg := cfg) h hx hn
        have := ih s' e2 (by rw [e4, e5]; omega)
        rw [e1]
        show (∃ s'', ls.foldlM (dumpStep cfg) s' = .ok s'') ↔ _
        rw [this]
        have hfit : LineFits cfg.fileIds N T s.queue.length s.rootNode s.numNodes [] x := by
          refine ⟨fun i hi => (by rw [ht] at hi; cases hi), fun hc i hi => ?_⟩
          rw [hx] at hi
          cases hi
          simpa [earlier, position, hc] using hn
        refine ⟨fun hall => ⟨hfit, fun p y r e => ?_⟩, fun hall p y r e => ?_⟩
        · have := hall p y r e
          rw [e3, e4, e5] at this
          cases x <;> first | exact this | cases hx
        · have := hall.2 p y r e
          rw [e3, e4, e5]
          cases x <;> first | exact this | cases hx
      · rw [step_node_error h hx (by omega)]
        refine ⟨fun ⟨_, e⟩ => (by cases e), fun hall => ?_⟩
        exfalso
        cases hc : cfg.fileIds with
        | true =>
          have := hall.1.2 hc id hx
          simp only [earlier] at this
          simp only [position, hc, ↓reduceIte] at hn
          omega
        | false =>
          simp only [position, hc, Bool.false_eq_true, ↓reduceIte] at hn
          omega
    | none =>
      have hcount : nodeLineCount (x :: ls) = nodeLineCount ls := by simp [nodeLineCount, hx]
      cases ht : treeNumber x with
      | some i =>
        obtain rfl : x = .tree i := by cases x <;> simp_all [treeNumber]
        by_cases hgood : s.queue.length = 0 ∧ i < T
        · obtain ⟨s', e1, e2, e3, e4, e5⟩ := step_tree (cfg := cfg) h hgood.1 hgood.2
          have := ih s' e2 (by rw [e4, e5]; omega)
          rw [e1]
          show (∃ s'', ls.foldlM (dumpStep cfg) s' = .ok s'') ↔ _
          rw [this, e3, e4, e5]
          have hfit : LineFits cfg.fileIds N T s.queue.length s.rootNode s.numNodes [] (.tree i : DumpLine F) :=
            ⟨fun j hj => (by cases hj; exact hgood), fun _ id hid => by cases hid⟩
          exact ⟨fun hall => ⟨hfit, fun p y r e => hall p y r e⟩, fun hall p y r e => hall.2 p y r e⟩
        · rw [step_tree_error h hgood]
          exact ⟨fun ⟨_, e⟩ => (by cases e), fun hall => absurd (hall.1.1 i rfl) hgood⟩
      | none =>
        obtain ⟨s', e1, e2, e3, e4, e5⟩ := step_other (cfg := cfg) h hx ht
        have := ih s' e2 (by rw [e4, e5]; omega)
        rw [e1]
        show (∃ s'', ls.foldlM (dumpStep cfg) s' = .ok s'') ↔ _
        rw [this, e3, e4, e5]
        have hfit : LineFits cfg.fileIds N T s.queue.length s.rootNode s.numNodes [] x :=
          ⟨fun j hj => (by rw [ht] at hj; cases hj), fun _ id hid => by rw [hx] at hid; cases hid⟩
        refine ⟨fun hall => ⟨hfit, fun p y r e => ?_⟩, fun hall p y r e => ?_⟩
        · have := hall p y r e
          cases x <;> first | cases hx; done | cases ht; done | exact this
        · have := hall.2 p y r e
          cases x <;> first | cases hx; done | cases ht; done | exact this

theorem dumpCount_lines (ls : List (DumpLine F)) : dumpCount ls = (treeLineCount ls, nodeLineCount ls) := by
  simp only [dumpCount, Prod.mk.injEq]
  induction ls with
  | nil => exact ⟨rfl, rfl⟩
  | cons x ls ih =>
    cases x <;>
      simp only [treeLineCount, nodeLineCount, List.countP_cons, List.filterMap_cons, treeNumber, nodeNumber, ih.1, ih.2, List.length_cons,
        Bool.false_eq_true, ↓reduceIte, Nat.add_zero, and_self]

theorem room_alloc (zero minusOne : F) (T N : Nat) (lr : F) (bs : Option F) : Room ⟨alloc zero minusOne T N, lr, bs, 0, 0, []⟩ N T :=
  ⟨⟨by simp [alloc], by simp [alloc], by simp [alloc], by simp [alloc]⟩, by simp [alloc], by simp [alloc], by simp⟩

theorem dumpLoad_ok (cfg : DumpCfg F) (zero minusOne : F) (ls : List (DumpLine F)) (lr : F) (bs : Option F) :
    (∃ a, dumpLoad cfg zero minusOne ls lr bs = .ok a) ↔
      ∀ p x r, ls = p ++ x :: r → LineFits cfg.fileIds (nodeLineCount ls) (treeLineCount ls) 0 0 0 p x := by
  have hfold := fold_ok cfg ls _ (room_alloc zero minusOne (treeLineCount ls) (nodeLineCount ls) lr bs) (by show 0 + 0 + _ ≤ _; omega)
  simp only [List.length_nil] at hfold
  rw [← hfold]
  unfold dumpLoad
  rw [dumpCount_lines]
  simp only []
  constructor
  · rintro ⟨a, ha⟩
    cases hf : ls.foldlM (dumpStep cfg) ⟨alloc zero minusOne (treeLineCount ls) (nodeLineCount ls), lr, bs, 0, 0, []⟩ with
    | error e => rw [hf] at ha; cases ha
    | ok s => exact ⟨s, rfl⟩
  · rintro ⟨s, hs⟩
    rw [hs]
    exact ⟨_, rfl⟩

/-! ### The lines of dumps -/

theorem expected_other (n : Nat) (p : List (DumpLine F)) : expected n (p.filter relevant) = expected n p := by
  induction p generalizing n with
  | nil => rfl
  | cons x p ih => cases x <;> simp [List.filter_cons, relevant, expected, ih]

theorem earlier_other (old new : Nat) (p : List (DumpLine F)) : earlier old new (p.filter relevant) = earlier old new p := by
  induction p generalizing old new with
  | nil => rfl
  | cons x p ih => cases x <;> simp [List.filter_cons, relevant, earlier, ih]

theorem treeLineCount_other (p : List (DumpLine F)) : treeLineCount (p.filter relevant) = treeLineCount p := by
  induction p with
  | nil => rfl
  | cons x p ih => cases x <;> simp_all [List.filter_cons, List.filterMap_cons, relevant, treeLineCount, treeNumber]

theorem nodeLineCount_other (p : List (DumpLine F)) : nodeLineCount (p.filter relevant) = nodeLineCount p := by
  induction p with
  | nil => rfl
  | cons x p ih => cases x <;> simp_all [List.filter_cons, List.filterMap_cons, relevant, nodeLineCount, nodeNumber]

theorem expected_dump (t : LTree F) (n : Nat) : expected n t.dump = n - 1 := by
  induction t generalizing n with
  | leaf => rfl
  | node id f th l r ihl ihr => simp only [LTree.dump, expected, expected_append, ihl, ihr]; omega

theorem dump_numbers (t : LTree F) : t.dump.map nodeNumber = t.ids.map some := by
  induction t with
  | leaf => rfl
  | node id f th l r ihl ihr => simp [LTree.dump, LTree.ids, nodeNumber, ihl, ihr]

theorem dump_isNode (t : LTree F) : ∀ x ∈ t.dump, ∃ id, nodeNumber x = some id := by
  intro x hx
  have : nodeNumber x ∈ t.dump.map nodeNumber := List.mem_map_of_mem hx
  rw [dump_numbers] at this
  obtain ⟨id, -, h⟩ := List.mem_map.1 this
  exact ⟨id, h.symm⟩

theorem treeNumber_of_node {x : DumpLine F} {id : Nat} (h : nodeNumber x = some id) : treeNumber x = none := by
  cases x <;> simp_all [nodeNumber, treeNumber]

theorem nodes_only {p : List (DumpLine F)} (h : ∀ x ∈ p, ∃ id, nodeNumber x = some id) :
    treeLineCount p = 0 ∧ nodeLineCount p = p.length ∧ ∀ old new, ∀ q, earlier old new (p ++ q) = earlier old (new + p.length) q := by
  induction p with
  | nil => exact ⟨rfl, rfl, fun _ _ _ => rfl⟩
  | cons x p ih =>
    obtain ⟨h1, h2, h3⟩ := ih (fun y hy => h y (by simp [hy]))
    obtain ⟨id, hid⟩ := h x (by simp)
    refine ⟨?_, ?_, ?_⟩
    · simpa [treeLineCount, treeNumber_of_node hid] using h1
    · simpa [nodeLineCount, hid] using h2
    · intro old new q
      cases x <;> first | cases hid; done | (simp only [List.cons_append, earlier, h3, List.length_cons]; congr 1; omega)

theorem treeLineCount_append (p q : List (DumpLine F)) : treeLineCount (p ++ q) = treeLineCount p + treeLineCount q := by simp [treeLineCount]

theorem nodeLineCount_append (p q : List (DumpLine F)) : nodeLineCount (p ++ q) = nodeLineCount p + nodeLineCount q := by simp [nodeLineCount]

theorem forest_tree : ∀ (ts : List (LTree F)) (k : Nat) (p : List (DumpLine F)) (i : Nat) (r : List (DumpLine F)),
    forestDump k ts = p ++ .tree i :: r → expected 0 p = 0 ∧ i = k + treeLineCount p := by
  intro ts
  induction ts with
  | nil => intro k p i r h; simp [forestDump] at h
  | cons t ts ih =>
    intro k p i r h
    cases p with
    | nil =>
      simp only [forestDump, List.nil_append, List.cons.injEq, DumpLine.tree.injEq] at h
      exact ⟨rfl, by rw [← h.1]; rfl⟩
    | cons y p =>
      simp only [forestDump, List.cons_append, List.cons.injEq] at h
      obtain ⟨rfl, h⟩ := h
      have key : ∃ q, p = t.dump ++ q ∧ forestDump (k + 1) ts = q ++ .tree i :: r := by
        rcases List.append_eq_append_iff.1 h with h | ⟨c, h1, h2⟩
        · exact h
        · cases c with
          | nil => exact ⟨[], by simpa using h1.symm, by simpa using h2.symm⟩
          | cons z c =>
            simp only [List.cons_append, List.cons.injEq] at h2
            obtain ⟨id, hid⟩ := dump_isNode t z (by rw [h1]; simp)
            rw [← h2.1] at hid
            cases hid
      obtain ⟨q, rfl, hq⟩ := key
      obtain ⟨e1, e2⟩ := ih (k + 1) q i r hq
      refine ⟨?_, ?_⟩
      · simp only [expected, expected_append, expected_dump]
        exact e1
      · have := (nodes_only (dump_isNode t)).1
        have e : treeLineCount (DumpLine.tree k :: (t.dump ++ q)) = 1 + treeLineCount (t.dump ++ q) := by
          simp [treeLineCount, treeNumber]; omega
        rw [e, treeLineCount_append, this, e2]
        omega

theorem forest_node : ∀ (ts : List (LTree F)), (∀ t ∈ ts, t.ids = List.range t.ids.length) → ∀ (k old new : Nat) (p : List (DumpLine F)) (x : DumpLine F)
    (id : Nat) (r : List (DumpLine F)), forestDump k ts = p ++ x :: r → nodeNumber x = some id →
    id + earlier old new p = old + new + nodeLineCount p := by
  intro ts
  induction ts with
  | nil => intro _ k old new p x id r h; simp [forestDump] at h
  | cons t ts ih =>
    intro hids k old new p x id r h hx
    cases p with
    | nil =>
      simp only [forestDump, List.nil_append, List.cons.injEq] at h
      rw [← h.1] at hx
      cases hx
    | cons y p =>
      simp only [forestDump, List.cons_append, List.cons.injEq] at h
      obtain ⟨rfl, h⟩ := h
      have hcons : nodeLineCount (DumpLine.tree k :: p) = nodeLineCount p := by simp [List.filterMap_cons, nodeLineCount, nodeNumber]
      rw [hcons]
      simp only [earlier]
      have key : (∃ q, p = t.dump ++ q ∧ forestDump (k + 1) ts = q ++ x :: r) ∨ ∃ c, t.dump = p ++ x :: c := by
        rcases List.append_eq_append_iff.1 h with h | ⟨c, h1, h2⟩
        · exact .inl h
        · cases c with
          | nil => exact .inl ⟨[], by simpa using h1.symm, by simpa using h2.symm⟩
          | cons z c =>
            simp only [List.cons_append, List.cons.injEq] at h2
            exact .inr ⟨c, by rw [h1, h2.1]⟩
      rcases key with ⟨q, rfl, hq⟩ | ⟨c, hc⟩
      · obtain ⟨-, e2, e3⟩ := nodes_only (dump_isNode t)
        have := ih (fun u hu => hids u (by simp [hu])) (k + 1) (old + new) (0 + t.dump.length) q x id r hq hx
        rw [e3, nodeLineCount_append, e2]
        omega
      · have hp : ∀ z ∈ p, ∃ id, nodeNumber z = some id := fun z hz => dump_isNode t z (by rw [hc]; simp [hz])
        obtain ⟨-, e2, e3⟩ := nodes_only hp
        have e4 := e3 (old + new) 0 []
        rw [List.append_nil] at e4
        have hnum := dump_numbers t
        rw [hids t (by simp), hc] at hnum
        have := congrArg (·[p.length]?) hnum
        simp only [List.map_append, List.map_cons, hx] at this
        rw [List.getElem?_append_right (by simp)] at this
        simp only [List.length_map, Nat.sub_self, List.getElem?_cons_zero, List.getElem?_map] at this
        have hid : id = p.length := by
          rcases Nat.lt_or_ge p.length t.ids.length with hlt | hge
          · rw [List.getElem?_range hlt] at this
            simpa using this
          · rw [List.getElem?_eq_none (by simpa using hge)] at this
            simp at this
        rw [e4, e2, hid]
        simp only [earlier]
        omega

end Ensemble
end Verif
