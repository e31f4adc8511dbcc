/-
Names of metric objects (`__str__` and the constructors of rankeval/metrics/*.py). Texts are lists of characters.
-/
import Verif.Model.Metrics
import Verif.Model.Svmlight

namespace Verif.Metrics
open Svm

/-- The classes of rankeval/metrics with their arguments other than name and cutoff. -/
inductive AnyMetric where
  | rank (m : RankMetric)
  | mse
  | rmse
  | kendall
  | spearman

/-- The default of the argument `name`: precision.py 24, precision_max.py 23, recall.py 24, dcg.py 17, ndcg.py 21, err.py 20, pfound.py 26, rbp.py 45,
mrr.py 23, map.py 22, mse.py 18, rmse.py 18, kendall_tau.py 20, spearman_rho.py 19. -/
def defaultName : AnyMetric → List Char
  | .rank (.precision _) => ['P']
  | .rank .precisionMax => ['P']
  | .rank (.recall _ _) => ['R']
  | .rank (.dcg _) => ['D', 'C', 'G']
  | .rank (.ndcg _ _) => ['N', 'D', 'C', 'G']
  | .rank .err => ['E', 'R', 'R']
  | .rank (.pfound _) => ['P', 'f']
  | .rank (.rbp _ _) => ['R', 'B', 'P']
  | .rank (.mrr _) => ['M', 'R', 'R']
  | .rank (.map _) => ['M', 'A', 'P']
  | .mse => ['M', 'S', 'E']
  | .rmse => ['R', 'M', 'S', 'E']
  | .kendall => ['K']
  | .spearman => ['R', 'h', 'o']

/-- The attribute `threshold` of the classes whose `__str__` shows it: precision.py 103, recall.py 114, rbp.py 127, mrr.py 114. -/
def shownThreshold : AnyMetric → Option ℝ
  | .rank (.precision t) => some t
  | .rank (.recall t _) => some t
  | .rank (.rbp t _) => some t
  | .rank (.mrr t) => some t
  | _ => none

/-- The classes whose `__str__` shows the cutoff; kendall_tau.py 97-99 and spearman_rho.py 78-80 have no cutoff. -/
def hasCutoff : AnyMetric → Bool
  | .kendall => false
  | .spearman => false
  | _ => true

/-- `if self.cutoff is not None: s += "@{}".format(self.cutoff)`. -/
def cutoffText (c : Option Int) : List Char := c.elim [] (fun k => '@' :: showInt k)

open Classical in
/-- `if self.threshold != self._threshold: s += "[>{}]".format(self.threshold)`, where `_threshold = 1` (precision.py 22, recall.py 22, rbp.py 43,
mrr.py 21). `num` is the text of a number. -/
noncomputable def thresholdText (num : ℝ → List Char) (t : Option ℝ) : List Char :=
  t.elim [] (fun t => if t ≠ 1 then ['[', '>'] ++ num t ++ [']'] else [])

/-- `__str__`: precision.py 99-105, precision_max.py 92-96, recall.py 110-116, dcg.py 101-105, ndcg.py 137-141, err.py 99-103, pfound.py 113-117,
rbp.py 123-129, mrr.py 110-116, map.py 113-117, mse.py 93-97, rmse.py 83-87, kendall_tau.py 97-99, spearman_rho.py 78-80. -/
noncomputable def metricStr (num : ℝ → List Char) (name : List Char) (cutoff : Option Int) (m : AnyMetric) : List Char :=
  name ++ (if hasCutoff m then cutoffText cutoff else []) ++ thresholdText num (shownThreshold m)

end Verif.Metrics
