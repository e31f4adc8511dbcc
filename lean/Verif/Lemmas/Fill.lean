/-
Nested loops that fill tables, part by part.
-/
import Verif.Lemmas.Tables

namespace Verif.Stat
variable {A B X Y : Type}

/-- `f` changes only the part `i` of an array, by `g`. -/
def IsLens (i : Nat) (f : List A → Except PyErr (List A)) (g : A → Except PyErr A) : Prop :=
  ∀ (a : List A) (hi : i < a.length), f a = (g a[i]).map (fun r => a.set i r)

theorem lens_at (i : Nat) (g : A → Except PyErr A) : IsLens i (atIndex i g) g := fun _ hi => atIndex_lt hi g

theorem lens_set (i : Nat) (x : A) : IsLens i (fun a => pySet a (i : Int) x) (fun _ => .ok x) := fun _ hi => pySet_lt hi x

theorem lens_fold {i : Nat} (xs : List X) {f : List A → X → Except PyErr (List A)} {g : A → X → Except PyErr A}
    (h : ∀ x, IsLens i (fun a => f a x) (fun b => g b x)) : IsLens i (fun a => xs.foldlM f a) (fun b => xs.foldlM g b) :=
  fun a hi => foldlM_lens (fun a x hi => h x a hi) xs a hi

theorem lens_bind {i : Nat} (p : Except PyErr Y) {f : Y → List A → Except PyErr (List A)} {g : Y → A → Except PyErr A} (h : ∀ y, IsLens i (f y) (g y)) :
    IsLens i (fun a => p >>= fun y => f y a) (fun b => p >>= fun y => g y b) := by
  intro a hi
  cases p with
  | error e => rfl
  | ok y => exact h y a hi

theorem mapM_congr {f g : X → Except PyErr A} : ∀ {l : List X}, (∀ x ∈ l, f x = g x) → l.mapM f = l.mapM g
  | [], _ => rfl
  | x :: l, h => by rw [List.mapM_cons, List.mapM_cons, h x (by simp), mapM_congr (fun y hy => h y (List.mem_cons_of_mem _ hy))]

/-- A loop over `xs` that changes part `k` for the element number `k`, on an array of initial values `z`. -/
theorem level {z : A} (xs : List X) {step : List A → X × Nat → Except PyErr (List A)} {inner : X → Nat → A → Except PyErr A} {G : X → Except PyErr A}
    (h : ∀ x k, (x, k) ∈ xs.zipIdx → IsLens k (fun a => step a (x, k)) (inner x k)) (hG : ∀ x k, (x, k) ∈ xs.zipIdx → inner x k z = G x) :
    xs.zipIdx.foldlM step (List.replicate xs.length z) = xs.mapM G :=
  foldlM_table1 xs (fun a x k hm hk hz => (h x k hm a hk).trans (by rw [hz, hG x k hm]))

theorem level_idx {z : A} (xs : List X) {step : List A → X × Nat → Except PyErr (List A)} {inner : X → Nat → A → Except PyErr A} {G : X → Nat → Except PyErr A}
    (h : ∀ x k, (x, k) ∈ xs.zipIdx → IsLens k (fun a => step a (x, k)) (inner x k)) (hG : ∀ x k, (x, k) ∈ xs.zipIdx → inner x k z = G x k) :
    xs.zipIdx.foldlM step (List.replicate xs.length z) = xs.zipIdx.mapM (fun x => G x.1 x.2) :=
  foldlM_table0 xs (fun a x k hm hk hz => (h x k hm a hk).trans (by rw [hz, hG x k hm]))

theorem foldlM_congr {f g : A → X → Except PyErr A} : ∀ {l : List X} (a : A), (∀ x ∈ l, ∀ a, f a x = g a x) → l.foldlM f a = l.foldlM g a
  | [], _, _ => rfl
  | x :: l, a, h => by
    rw [List.foldlM_cons, List.foldlM_cons, h x (by simp)]
    congr 1
    funext a
    exact foldlM_congr a (fun x hx => h x (List.mem_cons_of_mem _ hx))

theorem get_of_zipIdx {xs : List X} {x : X} {k : Nat} (h : (x, k) ∈ xs.zipIdx) : xs[k]? = some x := by
  obtain ⟨i, hi⟩ := List.mem_iff_getElem?.1 h
  rw [List.getElem?_zipIdx] at hi
  cases hx : xs[i]? with
  | none => rw [hx] at hi; cases hi
  | some y =>
    rw [hx] at hi
    simp only [Option.map_some, Option.some.injEq, Prod.mk.injEq] at hi
    obtain ⟨rfl, hk⟩ := hi
    have : k = i := by omega
    rw [this, hx]

/-- Such a loop on an array with more parts. -/
theorem level_more {z : A} : ∀ (xs : List X) (pre : List A) {step : List A → X × Nat → Except PyErr (List A)} {inner : X → Nat → A → Except PyErr A} (suf : List A),
    (∀ x k, (x, k) ∈ xs.zipIdx pre.length → IsLens k (fun a => step a (x, k)) (inner x k)) →
    (xs.zipIdx pre.length).foldlM step (pre ++ List.replicate xs.length z ++ suf) =
      ((xs.zipIdx pre.length).mapM (fun x => inner x.1 x.2 z)).map (fun r => pre ++ r ++ suf)
  | [], pre, _, _, suf, _ => by simp [Except.map, pure, Except.pure]
  | x :: xs, pre, step, inner, suf, h => by
    rw [List.zipIdx_cons, List.foldlM_cons, List.mapM_cons, List.length_cons, List.replicate_succ]
    have h1 := h x pre.length (by simp) (pre ++ z :: List.replicate xs.length z ++ suf) (by simp)
    have hget : (pre ++ z :: List.replicate xs.length z ++ suf)[pre.length]'(by simp) = z := by simp
    rw [hget] at h1
    refine (congrArg (fun e => e >>= fun a => (xs.zipIdx (pre.length + 1)).foldlM step a) h1).trans ?_
    cases hr : inner x pre.length z with
    | error e => rfl
    | ok r =>
      have ih := level_more (z := z) xs (pre ++ [r]) (step := step) (inner := inner) suf (fun x' k hk => h x' k (by
        rw [List.length_append] at hk
        rw [List.zipIdx_cons]
        exact List.mem_cons_of_mem _ hk))
      rw [List.length_append, List.length_singleton] at ih
      show (xs.zipIdx (pre.length + 1)).foldlM step ((pre ++ z :: List.replicate xs.length z ++ suf).set pre.length r) = _
      have e : (pre ++ z :: List.replicate xs.length z ++ suf).set pre.length r = pre ++ [r] ++ List.replicate xs.length z ++ suf := by
        rw [List.append_assoc, List.set_append_right _ _ (le_refl _), Nat.sub_self]
        simp
      rw [e, ih]
      show _ = Except.map _ (Bind.bind (m := Except PyErr) ((xs.zipIdx (pre.length + 1)).mapM (fun x => inner x.1 x.2 z)) _)
      cases (xs.zipIdx (pre.length + 1)).mapM (fun x => inner x.1 x.2 z) with
      | error e => rfl
      | ok l =>
        show Except.ok _ = Except.ok _
        simp

/-- A loop on two independent values, one of which does not fail. -/
theorem pairFold {f : A → X → Except PyErr A} {g : B → X → Except PyErr B} {h : A × B → X → Except PyErr (A × B)} : ∀ (l : List X) {a a' : A} (b : B),
    (∀ x ∈ l, ∀ a b a', f a x = .ok a' → h (a, b) x = (g b x).map (fun b' => (a', b'))) → l.foldlM f a = .ok a' →
    l.foldlM h (a, b) = (l.foldlM g b).map (fun b' => (a', b'))
  | [], a, a', b, _, hf => by
    cases hf
    rfl
  | x :: l, a, a', b, hh, hf => by
    rw [List.foldlM_cons] at hf
    cases hx : f a x with
    | error e => rw [hx] at hf; cases hf
    | ok a1 =>
      rw [hx] at hf
      rw [List.foldlM_cons, List.foldlM_cons, hh x (by simp) a b a1 hx]
      cases g b x with
      | error e => rfl
      | ok b1 => exact pairFold l b1 (fun x hx => hh x (List.mem_cons_of_mem _ hx)) hf

/-- A loop with a value that goes on from step to step. -/
theorem scanFold {S : Type} {adv : S → X × Nat → S} {g : S → B → X × Nat → Except PyErr B} {h : S × B → X × Nat → Except PyErr (S × B)}
    (hh : ∀ s b x, h (s, b) x = (g (adv s x) b x).map (fun b' => (adv s x, b'))) (Y : Nat → S) : ∀ (xs : List X) (n : Nat) (b : B),
    (∀ x k, (x, k) ∈ xs.zipIdx n → adv (Y k) (x, k) = Y (k + 1)) →
    ((xs.zipIdx n).foldlM h (Y n, b)).map (·.2) = (xs.zipIdx n).foldlM (fun b x => g (Y (x.2 + 1)) b x) b
  | [], n, b, _ => rfl
  | x :: xs, n, b, hY => by
    rw [List.zipIdx_cons, List.foldlM_cons, List.foldlM_cons, hh, hY x n (by simp [List.zipIdx_cons])]
    show _ = (Bind.bind (m := Except PyErr) (g (Y (n + 1)) b (x, n)) _)
    cases g (Y (n + 1)) b (x, n) with
    | error e => rfl
    | ok b1 =>
      exact scanFold hh Y xs (n + 1) b1 (fun x' k hk => hY x' k (by rw [List.zipIdx_cons]; exact List.mem_cons_of_mem _ hk))

theorem foldlM_zipIdx_fst (f : A → X → Except PyErr A) : ∀ (xs : List X) (n : Nat) (a : A), (xs.zipIdx n).foldlM (fun a x => f a x.1) a = xs.foldlM f a
  | [], _, _ => rfl
  | x :: xs, n, a => by
    rw [List.zipIdx_cons, List.foldlM_cons, List.foldlM_cons]
    congr 1
    funext a
    exact foldlM_zipIdx_fst f xs (n + 1) a

theorem foldlM_flatMap' (f : A → Y → Except PyErr A) (g : X → List Y) : ∀ (xs : List X) (a : A),
    xs.foldlM (fun a x => (g x).foldlM f a) a = (xs.flatMap g).foldlM f a
  | [], _ => rfl
  | x :: xs, a => by
    rw [List.foldlM_cons, List.flatMap_cons, List.foldlM_append]
    congr 1
    funext a
    exact foldlM_flatMap' f g xs a

end Verif.Stat
