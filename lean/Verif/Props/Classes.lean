/-
Property C85: classes derived from the metrics of the library.
-/
import Verif.Model.Classes

namespace Verif.Props
open Classes
variable {Q V : Type}

/-- A derived class of the usual form: where it defines `__init__` or `eval`, the method calls the one of the parent by
`super(NameOfTheClass, self)`. -/
def Usual (u : Cls Q V) : Prop :=
  (u.init = none ∨ u.init = some (.superOf u.name)) ∧ (u.eval = none ∨ u.eval = some (.superOf u.name)) ∧ u.abstract = false

/-- The `eval_per_query` of the last derived class that defines one, otherwise the one of the library. -/
def lastPerQuery (score : Q → V) : List (Cls Q V) → Q → V
  | [] => score
  | u :: us => u.perQuery.elim (lastPerQuery score us) id

/-- The derived classes that define a method, from the first derivation to the last. -/
def definers (method : Cls Q V → Option Body) (users : List (Cls Q V)) : List String :=
  ((users.filter (fun u => (method u).isSome)).map (·.name)).reverse

/-- The classes that use `super(self.__class__, self)`. -/
def Recursive (k : Kind) : Prop := k = .ndcg ∨ k = .mse ∨ k = .rmse

instance (k : Kind) : Decidable (Recursive k) := by unfold Recursive; infer_instance

theorem after_split {name : String} {pre : List (Cls Q V)} {u : Cls Q V} {suf : List (Cls Q V)} (hu : u.name = name)
    (hpre : ∀ c ∈ pre, c.name ≠ name) : after name (pre ++ u :: suf) = suf := by
  induction pre with
  | nil => simp [after, hu]
  | cons c pre ih =>
    rw [List.cons_append, after, if_neg (hpre c List.mem_cons_self)]
    exact ih (fun d hd => hpre d (List.mem_cons_of_mem _ hd))

theorem lookup_users {α : Type} {method : Cls Q V → Option α} {us tl : List (Cls Q V)} (h : ∀ u ∈ us, method u = none) :
    lookup method (us ++ tl) = lookup method tl := by
  induction us with
  | nil => rfl
  | cons u us ih =>
    rw [List.cons_append, lookup, h u List.mem_cons_self]
    exact ih (fun d hd => h d (List.mem_cons_of_mem _ hd))

theorem names_apart {pre suf : List (Cls Q V)} {u : Cls Q V} (h : ((pre ++ u :: suf).map (·.name)).Nodup) :
    ∀ c ∈ pre, c.name ≠ u.name := by
  intro c hc e
  rw [List.map_append, List.nodup_append] at h
  exact h.2.2 c.name (List.mem_map_of_mem hc) u.name (by simp) e

/-- Calls through classes of the usual form reach the classes of the library. -/
theorem call_usual {method : Cls Q V → Option Body} {lib : List (Cls Q V)} {done : List String} {m : Nat} :
    ∀ (us pre : List (Cls Q V)), (∀ u ∈ us, method u = none ∨ method u = some (.superOf u.name)) →
      ((pre ++ us ++ lib).map (·.name)).Nodup →
      (∀ n, m ≤ n → call method (pre ++ us ++ lib) n lib = .ok done) →
      ∀ n, m + us.length ≤ n →
        call method (pre ++ us ++ lib) n (us ++ lib) = .ok (done ++ definers method us)
  | [], pre, _, _, h, n, hn => by simpa [definers] using h n (by simpa using hn)
  | u :: us, pre, hu, hd, h, n, hn => by
    have e : pre ++ u :: us ++ lib = pre ++ [u] ++ us ++ lib := by simp
    have ih := call_usual us (pre ++ [u]) (fun v hv => hu v (List.mem_cons_of_mem _ hv)) (e ▸ hd) (e ▸ h)
    rw [List.length_cons] at hn
    rcases hu u List.mem_cons_self with h0 | h0
    · have : call method (pre ++ u :: us ++ lib) n (u :: us ++ lib) = call method (pre ++ u :: us ++ lib) n (us ++ lib) := by
        cases n with
        | zero => rfl
        | succ n => simp only [call, List.cons_append, lookup, h0, Option.elim_none]
      rw [this, e, ih n (by omega)]
      simp [definers, h0]
    · obtain ⟨n, rfl⟩ : ∃ k, n = k + 1 := ⟨n - 1, by omega⟩
      have ha : after u.name (pre ++ u :: us ++ lib) = us ++ lib := by
        rw [List.append_assoc, List.cons_append]
        exact after_split rfl (names_apart (suf := us ++ lib) (by simpa using hd))
      have : call method (pre ++ u :: us ++ lib) (n + 1) (u :: us ++ lib)
          = (call method (pre ++ u :: us ++ lib) n (us ++ lib)).map (· ++ [u.name]) := by
        rw [call]
        simp only [List.cons_append, lookup, h0, Option.elim_some]
        rw [ha]
      rw [this, e, ih n (by omega)]
      simp [definers, h0, Except.map]

/-- If the class of the library looks again in the parents of the class of the object, the calls never end. -/
theorem call_forever {method : Cls Q V → Option Body} {u : Cls Q V} {c : Cls Q V} {rest : List (Cls Q V)} (hc : method c = some .superOfSelf) :
    ∀ (n : Nat) (us pre users : List (Cls Q V)), u :: users = pre ++ us →
      (∀ v ∈ u :: users, method v = none ∨ method v = some (.superOf v.name)) →
      ((u :: users ++ c :: rest).map (·.name)).Nodup →
      call method (u :: users ++ c :: rest) n (us ++ c :: rest) = .error .runtimeError
  | 0, _, _, _, _, _, _ => rfl
  | n + 1, [], pre, users, _, hu, hd => by
    rw [call]
    simp only [List.nil_append, lookup, hc, Option.elim_some]
    show (call method (u :: users ++ c :: rest) n (users ++ c :: rest)).map _ = _
    rw [call_forever hc n users [u] users rfl hu hd]
    rfl
  | n + 1, v :: us, pre, users, e, hu, hd => by
    have hv : v ∈ u :: users := by rw [e]; simp
    rcases hu v hv with h0 | h0
    · have : call method (u :: users ++ c :: rest) (n + 1) (v :: us ++ c :: rest)
          = call method (u :: users ++ c :: rest) (n + 1) (us ++ c :: rest) := by
        simp only [call, List.cons_append, lookup, h0, Option.elim_none]
      rw [this]
      exact call_forever hc (n + 1) us (pre ++ [v]) users (by simpa using e) hu hd
    · have ha : after v.name (u :: users ++ c :: rest) = us ++ c :: rest := by
        rw [e, List.append_assoc, List.cons_append]
        exact after_split rfl (names_apart (suf := us ++ c :: rest) (by rw [e] at hd; simpa using hd))
      rw [call]
      simp only [List.cons_append, lookup, h0, Option.elim_some]
      rw [← List.cons_append, ha, call_forever hc n us (pre ++ [v]) users (by simpa using e) hu hd]
      rfl
  termination_by n us => (n, us.length)

theorem lookup_abstract {α : Type} {method : Cls Q V → Option α} {c : Cls Q V} {rest : List (Cls Q V)} (hc : (method c).isSome)
    (ha : c.abstract = false) : ∀ {us : List (Cls Q V)}, (∀ u ∈ us, u.abstract = false) → isAbstract method (us ++ c :: rest) = false
  | [], _ => by
    obtain ⟨b, hb⟩ := Option.isSome_iff_exists.1 hc
    simp [isAbstract, lookup, hb, ha]
  | u :: us, h => by
    have ih := lookup_abstract (rest := rest) hc ha (us := us) (fun v hv => h v (List.mem_cons_of_mem _ hv))
    unfold isAbstract at ih ⊢
    rw [List.cons_append, lookup]
    cases method u with
    | none => exact ih
    | some b => simp [h u List.mem_cons_self]

theorem construct_call {users : List (Cls Q V)} (hu : ∀ u ∈ users, Usual u) (limit : Nat) (k : Kind) (score : Q → V) (none : V) :
    construct limit (derivedMro users k score none) = call Cls.init (derivedMro users k score none) limit (derivedMro users k score none) := by
  have ha : ∀ u ∈ users, u.abstract = false := fun u h => (hu u h).2.2
  have key : (isAbstract Cls.init (derivedMro users k score none) || isAbstract Cls.eval (derivedMro users k score none) ||
      isAbstract Cls.perQuery (derivedMro users k score none)) = false := by
    have h1 : isAbstract Cls.init (derivedMro users k score none) = false := lookup_abstract rfl rfl ha
    have h2 : isAbstract Cls.eval (derivedMro users k score none) = false := lookup_abstract rfl rfl ha
    have h3 : isAbstract Cls.perQuery (derivedMro users k score none) = false := lookup_abstract rfl rfl ha
    rw [h1, h2, h3]
    rfl
  unfold construct
  rw [key]
  rfl

theorem lookup_perQuery (k : Kind) (score : Q → V) (none : V) : ∀ users : List (Cls Q V),
    (lookup Cls.perQuery (derivedMro users k score none)).map (·.2) = some (lastPerQuery score users)
  | [] => rfl
  | u :: us => by
    have ih := lookup_perQuery k score none us
    simp only [derivedMro, List.cons_append, lookup, lastPerQuery] at ih ⊢
    cases u.perQuery with
    | none => exact ih
    | some f => rfl

/-- C85, proved part: a class derived in any number of steps from a class of the library can be constructed, all `__init__` of its classes run from
the first to the last, and `eval` gives for each query the value of the last `eval_per_query`. Missing: NDCG, MSE and RMSE, see `C85_violated`. -/
theorem C85_derived_partial {users : List (Cls Q V)} (hu : ∀ u ∈ users, Usual u) {k : Kind} (hk : ¬ Recursive k) (score : Q → V) (none : V)
    (hd : ((derivedMro users k score none).map (·.name)).Nodup) {limit : Nat} (hl : users.length + 2 ≤ limit) (queries : List Q) :
    construct limit (derivedMro users k score none) = .ok (["Metric", className k] ++ definers Cls.init users) ∧
    evalObject limit (derivedMro users k score none) queries = .ok (queries.map (lastPerQuery score users)) := by
  have hi : initBody k = .superOf (className k) := by revert hk; cases k <;> decide
  have he : evalBody k = .superOf (className k) := by revert hk; cases k <;> decide
  have hbase : ∀ method : Cls Q V → Option Body, method (libClass k score) = some (.superOf (className k)) →
      method (metric none) = some .own → ∀ n, 2 ≤ n →
      call method ([] ++ users ++ [libClass k score, metric none]) n [libClass k score, metric none] = .ok ["Metric", className k] := by
    intro method h1 h2 n hn
    obtain ⟨n, rfl⟩ : ∃ j, n = j + 2 := ⟨n - 2, by omega⟩
    have ha : after (className k) ([] ++ users ++ [libClass k score, metric none]) = [metric none] :=
      after_split (pre := users) rfl (names_apart (u := libClass k score) (suf := [metric none]) hd)
    rw [call]
    simp only [lookup, h1, Option.elim_some]
    rw [ha, call]
    simp only [lookup, h2, Option.elim_some]
    rfl
  refine ⟨?_, ?_⟩
  · rw [construct_call hu]
    exact call_usual users [] (fun u h => (hu u h).1) hd (hbase _ (congrArg some hi) rfl) limit (by omega)
  · unfold evalObject
    have := call_usual users [] (fun u h => (hu u h).2.1) hd (hbase Cls.eval (congrArg some he) rfl) limit (by omega)
    rw [List.nil_append] at this
    have e : call Cls.eval (derivedMro users k score none) limit (derivedMro users k score none)
        = .ok (["Metric", className k] ++ definers Cls.eval users) := this
    rw [e]
    have h := lookup_perQuery k score none users
    obtain ⟨r, hr, h2⟩ := Option.map_eq_some_iff.1 h
    simp only [Except.bind]
    rw [hr, ← h2]
    rfl

/-- C85: the classes of the library themselves can all be constructed and evaluated. -/
theorem C85_library (k : Kind) (score : Q → V) (none : V) {limit : Nat} (hl : 2 ≤ limit) (queries : List Q) :
    construct limit (derivedMro [] k score none) = .ok ["Metric", className k] ∧
    evalObject limit (derivedMro [] k score none) queries = .ok (queries.map score) := by
  obtain ⟨n, rfl⟩ : ∃ j, limit = j + 2 := ⟨limit - 2, by omega⟩
  cases k <;> exact ⟨rfl, rfl⟩

/-- C85: the classes have different names, none of them `Metric`, so that `super(Name, self)` begins behind the right class. -/
theorem C85_names : Function.Injective className ∧ (∀ k, className k ≠ "Metric") := by
  constructor
  · intro a b h
    cases a <;> cases b <;> first | rfl | (exfalso; revert h; decide)
  · intro k
    cases k <;> decide

/-- C85 is violated by NDCG, MSE and RMSE: no class derived from them can be constructed, whatever the limit of recursion. -/
theorem C85_violated {u : Cls Q V} {users : List (Cls Q V)} (hu : ∀ v ∈ u :: users, Usual v) {k : Kind} (hk : Recursive k) (score : Q → V) (none : V)
    (hd : ((derivedMro (u :: users) k score none).map (·.name)).Nodup) (limit : Nat) :
    construct limit (derivedMro (u :: users) k score none) = .error .runtimeError := by
  rw [construct_call hu]
  have hi : initBody k = .superOfSelf := by rcases hk with rfl | rfl | rfl <;> rfl
  exact call_forever (c := libClass k score) (rest := [metric none]) (congrArg some hi) limit (u :: users) [] users rfl
    (fun v h => (hu v h).1) hd

/-- C85, NDCG and RMSE: an `__init__` that does not call the one of the parent does not help, `eval` does not end either. -/
theorem C85_violated_eval {u : Cls Q V} {users : List (Cls Q V)} (hu : ∀ v ∈ u :: users, v.eval = Option.none ∨ v.eval = some (.superOf v.name))
    {k : Kind} (hk : k = .ndcg ∨ k = .rmse) (score : Q → V) (none : V) (hd : ((derivedMro (u :: users) k score none).map (·.name)).Nodup)
    (limit : Nat) (queries : List Q) : evalObject limit (derivedMro (u :: users) k score none) queries = .error .runtimeError := by
  have he : evalBody k = .superOfSelf := by rcases hk with rfl | rfl <;> rfl
  have h := call_forever (c := libClass k score) (rest := [metric none]) (method := Cls.eval) (congrArg some he) limit (u :: users) [] users rfl hu hd
  unfold evalObject
  have e : call Cls.eval (derivedMro (u :: users) k score none) limit (derivedMro (u :: users) k score none) = .error .runtimeError := h
  rw [e]
  rfl

/-- C85: a metric that does not define the three methods cannot be constructed. -/
theorem C85_abstract (limit : Nat) (u : Cls Q V) (none : V) (h : u.init = Option.none ∨ u.eval = Option.none ∨ u.perQuery = Option.none) :
    construct limit [u, metric none] = .error .typeError := by
  have key : (isAbstract Cls.init [u, metric none] || isAbstract Cls.eval [u, metric none] || isAbstract Cls.perQuery [u, metric none]) = true := by
    rcases h with h | h | h <;> simp [isAbstract, lookup, h, metric]
  unfold construct
  rw [if_pos key]

/-- A class with its own `eval_per_query` and `__init__`, and one derived from it with nothing of its own. -/
def halved : Cls Nat Nat := ⟨"Halved", some (.superOf "Halved"), none, some (· / 2), false⟩
def renamed : Cls Nat Nat := ⟨"Renamed", none, none, none, false⟩

/-- Non-vacuity: the hypotheses of `C85_derived_partial` and `C85_violated`. -/
example : (∀ u ∈ [renamed, halved], Usual u) ∧ ¬ Recursive .precision ∧
    ((derivedMro [renamed, halved] .precision (· + 1) 0).map (·.name)).Nodup := by
  simp [Usual, renamed, halved, derivedMro, libClass, metric, className, Recursive]

example : construct 1000 (derivedMro [renamed, halved] .precision (· + 1) 0) = .ok ["Metric", "Precision", "Halved"] := by decide +kernel
example : evalObject 1000 (derivedMro [renamed, halved] .precision (· + 1) 0) [4, 6] = .ok [2, 3] := by rfl
example : construct 1000 (derivedMro [renamed, halved] .ndcg (· + 1) 0) = .error .runtimeError :=
  C85_violated (by simp [Usual, renamed, halved]) (by decide) _ _ (by simp [renamed, halved, derivedMro, libClass, metric, className]) _
example : evalObject 1000 (derivedMro [renamed] .rmse (· + 1) 0) [4, 6] = .error .runtimeError :=
  C85_violated_eval (by simp [renamed]) (by decide) _ _ (by simp [renamed, derivedMro, libClass, metric, className]) _ _
example : construct 1000 [halved, metric 0] = .error .typeError := C85_abstract _ _ _ (.inr (.inl rfl))

end Verif.Props
