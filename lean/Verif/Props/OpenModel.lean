/-
Property C87: opening and saving models by the name of the format.
-/
import Verif.Model.OpenModel
import Verif.Props.QuickRankText

namespace Verif.Props
open Spec Ensemble
variable {F : Type}

/-- The names in the documentation (rt_ensemble.py 43-44). -/
def documentedName : Format → String
  | .quickRank => "QuickRank"
  | .scikitLearn => "ScikitLearn"
  | .xgboost => "XGBoost"
  | .lightGBM => "LightGBM"
  | .catBoost => "CatBoost"
  | .jforests => "Jforests"

theorem formatNamed_iff (name : String) (fmt : Format) : formatNamed name = some fmt ↔ name = documentedName fmt := by
  constructor
  · intro h
    unfold formatNamed at h
    split_ifs at h with h1 h2 h3 h4 h5 h6 <;> cases h <;> assumption
  · rintro rfl
    cases fmt <;> decide

theorem formatNamed_none {name : String} (h : ∀ fmt, name ≠ documentedName fmt) : formatNamed name = none := by
  cases hc : formatNamed name with
  | none => rfl
  | some fmt => exact absurd ((formatNamed_iff name fmt).1 hc) (h fmt)

/-- C87, proved part: opened by one of the documented names, a model is what the reader of the format makes of the file, or the error that it raises.
Missing: CatBoost files without the package coremltools, see `C87_violated`. -/
theorem C87_open_partial (coremltools : Bool) (half : F) (load : Format → F → Option F → Except PyErr (Loaded F)) (fmt : Format)
    (h : fmt = .catBoost → coremltools = true) (lr : F) (bs : Option F) (nTrees : Option Nat) :
    openModel coremltools half load (documentedName fmt) lr bs nTrees = (rtEnsemble half fmt (load fmt) lr bs nTrees).map .loaded := by
  have hn := (formatNamed_iff (documentedName fmt) fmt).2 rfl
  have hc : ¬ (fmt = .catBoost ∧ coremltools = false) := by
    rintro ⟨h1, h2⟩
    rw [h h1] at h2
    cases h2
  simp only [openModel, hn, if_neg hc]

/-- C87: other names are refused, also those in another case, whatever the file. -/
theorem C87_unknown (coremltools : Bool) (half : F) (load : Format → F → Option F → Except PyErr (Loaded F)) {name : String}
    (h : ∀ fmt, name ≠ documentedName fmt) (lr : F) (bs : Option F) (nTrees : Option Nat) (pr : Reprs F) (m : Opened F) :
    openModel coremltools half load name lr bs nTrees = .error .typeError ∧ saveOpened pr name m = .error .typeError := by
  have hn := formatNamed_none h
  simp only [openModel, saveOpened, hn, and_self]

/-- C87 is violated: without coremltools every CatBoost file, also one that does not exist, is opened without an error; the model cannot score any
data. -/
theorem C87_violated (half : F) (load : Format → F → Option F → Except PyErr (Loaded F)) (lr : F) (bs : Option F) (ops : FloatOps F)
    (detailed : Bool) (X : List (List F)) (nf : Nat) :
    ∃ m, openModel false half load "CatBoost" lr bs none = .ok m ∧ scoreOpened ops detailed X nf m = .error .typeError := by
  have hn : formatNamed "CatBoost" = some .catBoost := by decide
  exact ⟨.empty, by simp [openModel, hn, pruneEmpty], rfl⟩

/-- C87: without coremltools a number of trees makes the opening of a CatBoost file fail. -/
theorem C87_prune_empty (half : F) (load : Format → F → Option F → Except PyErr (Loaded F)) (lr : F) (bs : Option F) (n : Nat) :
    openModel false half load "CatBoost" lr bs (some n) = .error .typeError := by
  have hn : formatNamed "CatBoost" = some .catBoost := by decide
  simp [openModel, hn, pruneEmpty]

/-- C87: a model with trees is saved under the name QuickRank, so that it opens again under this name with the same trees, and refused under all other
names. -/
theorem C87_save (pr : Reprs F) (float : List Char → Option F) (hpr : PrintsNumbers pr float) (zero minusOne half : F) {l : Loaded F}
    {fo : Forest F} (h : Represents l.arrays fo) (hne : fo ≠ []) (hf : ∀ p ∈ fo, ∀ f ∈ p.1.features, f < 2 ^ 15) :
    (∃ text, saveOpened pr "QuickRank" (.loaded l) = .ok text ∧ ∀ (coremltools : Bool) (load : Format → F → Option F → Except PyErr (Loaded F)),
      load .quickRank = quickrankLoadText float zero minusOne text → ∃ m', openModel coremltools half load "QuickRank" l.learningRate l.baseScore none =
        .ok (.loaded ⟨m', l.learningRate, l.baseScore⟩) ∧ Represents m' fo) ∧
    ∀ name, name ≠ "QuickRank" → ∃ e, saveOpened pr name (.loaded l) = .error e := by
  constructor
  · obtain ⟨text, h1, h2⟩ := C78_roundtrip pr float hpr zero minusOne half h hne hf l.learningRate
    obtain ⟨m', h3, h4⟩ := h2 l.learningRate l.baseScore
    have hn : formatNamed "QuickRank" = some .quickRank := by decide
    refine ⟨text, by simp only [saveOpened, hn, h1], fun coremltools load hload => ⟨m', ?_, h4⟩⟩
    have := C87_open_partial coremltools half load .quickRank (by simp) l.learningRate l.baseScore none
    rw [documentedName, hload, h3] at this
    exact this
  · intro name hname
    unfold saveOpened
    cases hc : formatNamed name with
    | none => exact ⟨_, rfl⟩
    | some fmt =>
      have := (formatNamed_iff name fmt).1 hc
      cases fmt with
      | quickRank => exact absurd this hname
      | _ => exact ⟨_, rfl⟩

/-- Non-vacuity: the names, and a CatBoost file opened with and without the package. -/
example : (∀ fmt, "Quickrank" ≠ documentedName fmt) ∧ formatNamed "QuickRank" = some .quickRank ∧
    openModel true (7 : Int) (fun _ lr bs => catboostLoad 0 1 (-1) (List.replicate · 0) [⟨0, 0, .leaf 5⟩] lr bs) "CatBoost" 1 none none =
      .ok (.loaded ⟨⟨1, 1, [0], [1], [-1], [-1], [5], [-1]⟩, 1, none⟩) ∧
    openModel false (7 : Int) (fun _ lr bs => catboostLoad 0 1 (-1) (List.replicate · 0) [⟨0, 0, .leaf 5⟩] lr bs) "CatBoost" 1 none none =
      .ok .empty ∧
    openModel false (7 : Int) (fun _ lr bs => catboostLoad 0 1 (-1) (List.replicate · 0) [⟨0, 0, .leaf 5⟩] lr bs) "CatBoost" 1 none (some 1) =
      .error .typeError := by
  refine ⟨fun fmt => by cases fmt <;> decide, by decide, by decide +kernel, by decide +kernel, by decide +kernel⟩

/-- The hypotheses of `C87_save` for a model of one leaf: its file opens again. -/
example : ∃ text, saveOpened ⟨intRepr, intRepr⟩ "QuickRank" (.loaded ⟨(⟨1, 1, [0], [2], [-1], [-1], [7], [-1]⟩ : Ensemble Int), 1, none⟩) = .ok text ∧
    ∃ m', openModel true 0 (fun _ => quickrankLoadText intFloat 0 (-1) text) "QuickRank" 1 none none = .ok (.loaded ⟨m', 1, none⟩) ∧
      Represents m' [(.leaf 7, 2)] := by
  have h : Represents (⟨1, 1, [0], [2], [-1], [-1], [7], [-1]⟩ : Ensemble Int) [(.leaf 7, 2)] := by
    refine ⟨rfl, rfl, rfl, rfl, rfl, rfl, rfl, by decide, fun k t w hk => ?_⟩
    match k, hk with
    | 0, hk => cases hk; exact ⟨[0], .leaf rfl rfl rfl rfl, by decide⟩
    | _ + 1, hk => simp at hk
  obtain ⟨⟨text, h1, h2⟩, _⟩ := C87_save ⟨intRepr, intRepr⟩ intFloat printsNumbers_int 0 (-1) 0 (l := ⟨_, 1, none⟩) h (by simp) (by simp [Spec.Tree.features])
  exact ⟨text, h1, h2 true (fun _ => quickrankLoadText intFloat 0 (-1) text) rfl⟩

end Verif.Props
