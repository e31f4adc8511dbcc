/-
Classes of metrics and classes derived from them: which method runs, and how the methods call those of the parent class
(rankeval/metrics/*.py).

Only single inheritance is modelled. A class is identified by its name, and the order in which Python looks up methods (`__mro__`) is the list of
the class, its parent, and so on, up to `Metric`. Of a method it matters only how it hands the work on; of `eval_per_query` it matters which one is
called.
-/
import Verif.Py.Basic

namespace Verif.Classes

/-- How a method does its work. -/
inductive Body where
  /-- without calling the method of a parent -/
  | own
  /-- by `super(C, self).method(...)`, where `C` is the class with this name -/
  | superOf (name : String)
  /-- by `super(self.__class__, self).method(...)` -/
  | superOfSelf
  deriving DecidableEq, Repr

/-- A class with the methods it defines itself. `Q` are queries and `V` the values of `eval_per_query`. -/
structure Cls (Q V : Type) where
  name : String
  init : Option Body
  eval : Option Body
  perQuery : Option (Q → V)
  /-- the methods are decorated with `@abstractmethod` -/
  abstract : Bool

variable {Q V : Type}

/-- The first class of a list that defines a method. -/
def lookup {α : Type} (method : Cls Q V → Option α) : List (Cls Q V) → Option (Cls Q V × α)
  | [] => none
  | c :: cs => (method c).elim (lookup method cs) (fun b => some (c, b))

/-- The classes after the one with the given name: where `super` begins to look. -/
def after (name : String) : List (Cls Q V) → List (Cls Q V)
  | [] => []
  | c :: cs => if c.name = name then cs else after name cs

/-- A call of a method on an object whose classes are `mro`, looked up in `look`. `limit` is the number of calls that Python still permits
(`sys.getrecursionlimit`); a further one raises `RecursionError`, a subclass of `RuntimeError`. The result are the classes whose method has run,
the one that ended first coming first. -/
def call (method : Cls Q V → Option Body) (mro : List (Cls Q V)) : Nat → List (Cls Q V) → Except PyErr (List String)
  | 0, _ => .error .runtimeError
  | limit + 1, look =>
    match lookup method look with
    | none => .error .attributeError
    | some (c, .own) => .ok [c.name]
    | some (c, .superOf name) => (call method mro limit (after name mro)).map (· ++ [c.name])
    | some (c, .superOfSelf) => (call method mro limit mro.tail).map (· ++ [c.name])

/-- A method is abstract if the class where it is found declares it so. -/
def isAbstract {α : Type} (method : Cls Q V → Option α) (mro : List (Cls Q V)) : Bool :=
  (lookup method mro).elim false (fun r => r.1.abstract)

/-- Construction of an object: `ABCMeta` refuses classes with abstract methods, then `__init__` runs. The result are the classes whose `__init__`
has set its attributes. -/
def construct (limit : Nat) (mro : List (Cls Q V)) : Except PyErr (List String) :=
  if isAbstract Cls.init mro || isAbstract Cls.eval mro || isAbstract Cls.perQuery mro then .error .typeError
  else call Cls.init mro limit mro

/-- `metric.eval(dataset, y_pred)`: the method `eval`, which in the end calls `self.eval_per_query` for each query (metric.py 66-68, mse.py 61-63).
The result are the detailed scores; the division of mse.py 63 is left out, see C24. -/
def evalObject (limit : Nat) (mro : List (Cls Q V)) (queries : List Q) : Except PyErr (List V) :=
  (call Cls.eval mro limit mro).bind fun _ =>
    (lookup Cls.perQuery mro).elim (.error .attributeError) (fun r => .ok (queries.map r.2))

/-- metric.py 16-74: the abstract class; its `eval_per_query` returns `None`. -/
def metric (none : V) : Cls Q V := ⟨"Metric", some .own, some .own, some (fun _ => none), true⟩

/-- The classes of rankeval/metrics. -/
inductive Kind where
  | dcg | err | kendall | map | mrr | mse | ndcg | pfound | precision | precisionMax | rbp | recall | rmse | spearman
  deriving DecidableEq, Repr

/-- The class statements: dcg.py 12, err.py 13, kendall_tau.py 13, map.py 13, mrr.py 15, mse.py 13, ndcg.py 15, pfound.py 13, precision.py 12,
precision_max.py 12, rbp.py 13, recall.py 12, rmse.py 12, spearman_rho.py 12. -/
def className : Kind → String
  | .dcg => "DCG"
  | .err => "ERR"
  | .kendall => "Kendalltau"
  | .map => "MAP"
  | .mrr => "MRR"
  | .mse => "MSE"
  | .ndcg => "NDCG"
  | .pfound => "Pfound"
  | .precision => "Precision"
  | .precisionMax => "PrecisionMax"
  | .rbp => "RBP"
  | .recall => "Recall"
  | .rmse => "RMSE"
  | .spearman => "SpearmanRho"

/-- The call of `__init__` of the parent: dcg.py 35, err.py 35, kendall_tau.py 32, map.py 40, mrr.py 40, mse.py 33, ndcg.py 48, pfound.py 49,
precision.py 43, precision_max.py 37, rbp.py 66, recall.py 46, rmse.py 33, spearman_rho.py 30. -/
def initBody : Kind → Body
  | .mse => .superOfSelf
  | .ndcg => .superOfSelf
  | .rmse => .superOfSelf
  | k => .superOf (className k)

/-- The call of `eval` of the parent: dcg.py 63, err.py 61, kendall_tau.py 57, map.py 65, mrr.py 70, ndcg.py 97, pfound.py 75, precision.py 70,
precision_max.py 63, rbp.py 92, recall.py 74, rmse.py 58, spearman_rho.py 54; mse.py 57 has it commented out and does the work itself. -/
def evalBody : Kind → Body
  | .mse => .own
  | .ndcg => .superOfSelf
  | .rmse => .superOfSelf
  | k => .superOf (className k)

/-- A class of the library, with its `eval_per_query`. -/
def libClass (k : Kind) (score : Q → V) : Cls Q V := ⟨className k, some (initBody k), some (evalBody k), some score, false⟩

/-- `__mro__` of a class derived from a class of the library in several steps, the last one first (`object`, which follows, is left out). -/
def derivedMro (users : List (Cls Q V)) (k : Kind) (score : Q → V) (none : V) : List (Cls Q V) := users ++ [libClass k score, metric none]

end Verif.Classes
