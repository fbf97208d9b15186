import Verif.Spec.XsltRun
set_option autoImplicit false
set_option linter.unusedSimpArgs false
set_option linter.unusedVariables false
namespace Verif.Spec.XsltRun
open Verif.XTree Verif.XPath Verif.XPathEval Verif.Spec.XPathEval
open Verif.XPathParse (Expr)
open Verif.XsltRun (VName)

/-! ## What an expression means depends on the variables it mentions -/

section
variable {w : World} {cv : Conv} {vars vars' : Str → Str → Option Val}

/-- The variables of these names are the same. -/
def SameAt (vars vars' : Str → Str → Option Val) (ns : List VName) : Prop := ∀ u n, (u, n) ∈ ns → vars u n = vars' u n

theorem same_left {a b : List VName} (h : SameAt vars vars' (a ++ b)) : SameAt vars vars' a :=
  fun u n hn => h u n (List.mem_append_left _ hn)

theorem same_right {a b : List VName} (h : SameAt vars vars' (a ++ b)) : SameAt vars vars' b :=
  fun u n hn => h u n (List.mem_append_right _ hn)

mutual

theorem means_same : ∀ (e : Expr), SameAt vars vars' (mentions e) → Means w cv vars e = Means w cv vars' e
  | .number _, _ => by funext x i k v; rw [Means, Means]
  | .string _, _ => by funext x i k v; rw [Means, Means]
  | .var u n, h => by
    funext x i k v
    rw [Means, Means, h u n (by simp [mentions])]
  | .call u n args, h => by
    rw [mentions] at h
    funext x i k v
    rw [Means, Means, args_same args h]
  | .binary op a b, h => by
    rw [mentions] at h
    funext x i k v
    rw [Means, Means, means_same a (same_left h), means_same b (same_right h)]
  | .negative a, h => by
    rw [mentions] at h
    funext x i k v
    rw [Means, Means, means_same a h]
  | .path b ss, h => by
    rw [mentions] at h
    funext x i k v
    rw [Means, Means, path_same ss h]

theorem args_same : ∀ (es : List Expr), SameAt vars vars' (mentionsAll es) → ArgsMean w cv vars es = ArgsMean w cv vars' es
  | [], _ => by funext x i k vs; rw [ArgsMean, ArgsMean]
  | e :: es, h => by
    rw [mentionsAll] at h
    funext x i k vs
    rw [ArgsMean, ArgsMean, means_same e (same_left h), args_same es (same_right h)]

theorem preds_same : ∀ (ps : List Expr), SameAt vars vars' (mentionsAll ps) → PredsMean w cv vars ps = PredsMean w cv vars' ps
  | [], _ => by funext l l'; rw [PredsMean, PredsMean]
  | p :: ps, h => by
    rw [mentionsAll] at h
    funext l l'
    rw [PredsMean, PredsMean, means_same p (same_left h), preds_same ps (same_right h)]

theorem step_same : ∀ (s : Verif.XPathParse.Step), SameAt vars vars' (mentionsStep s) → StepMeans w cv vars s = StepMeans w cv vars' s
  | .test a t ps, h => by
    rw [mentionsStep] at h
    funext x i k y
    rw [StepMeans, StepMeans, preds_same ps h]
  | .expr e ps, h => by
    rw [mentionsStep] at h
    funext x i k y
    rw [StepMeans, StepMeans, means_same e (same_left h), preds_same ps (same_right h)]

theorem path_same : ∀ (ss : List Verif.XPathParse.Step), SameAt vars vars' (mentionsSteps ss) → PathMeans w cv vars ss = PathMeans w cv vars' ss
  | [], _ => by funext x i k y; rw [PathMeans, PathMeans]
  | s :: ss, h => by
    rw [mentionsSteps] at h
    funext x i k y
    rw [PathMeans, PathMeans, step_same s (same_left h), path_same ss (same_right h)]

end

mutual

theorem sound_same : ∀ (e : Expr), SameAt vars vars' (mentions e) → Sound w cv vars e = Sound w cv vars' e
  | .number _, _ => by funext x i k; rw [Sound, Sound]
  | .string _, _ => by funext x i k; rw [Sound, Sound]
  | .var u n, h => by
    funext x i k
    rw [Sound, Sound, h u n (by simp [mentions])]
  | .call u n args, h => by
    rw [mentions] at h
    funext x i k
    rw [Sound, Sound, args_same args h, soundArgs_same args h]
  | .binary op a b, h => by
    rw [mentions] at h
    funext x i k
    rw [Sound, Sound, means_same a (same_left h), means_same b (same_right h), sound_same a (same_left h),
      sound_same b (same_right h)]
  | .negative a, h => by
    rw [mentions] at h
    funext x i k
    rw [Sound, Sound, sound_same a h]
  | .path b ss, h => by
    rw [mentions] at h
    funext x i k
    rw [Sound, Sound, soundSteps_same ss h]

theorem soundArgs_same : ∀ (es : List Expr), SameAt vars vars' (mentionsAll es) →
    SoundArgs w cv vars es = SoundArgs w cv vars' es
  | [], _ => by funext x i k; rw [SoundArgs, SoundArgs]
  | e :: es, h => by
    rw [mentionsAll] at h
    funext x i k
    rw [SoundArgs, SoundArgs, sound_same e (same_left h), soundArgs_same es (same_right h)]

theorem soundPreds_same : ∀ (ps : List Expr), SameAt vars vars' (mentionsAll ps) →
    SoundPreds w cv vars ps = SoundPreds w cv vars' ps
  | [], _ => by funext l; rw [SoundPreds, SoundPreds]
  | p :: ps, h => by
    rw [mentionsAll] at h
    funext l
    rw [SoundPreds, SoundPreds, means_same p (same_left h), sound_same p (same_left h), soundPreds_same ps (same_right h)]

theorem soundStep_same : ∀ (s : Verif.XPathParse.Step), SameAt vars vars' (mentionsStep s) → SoundStep w cv vars s = SoundStep w cv vars' s
  | .test a t ps, h => by
    rw [mentionsStep] at h
    funext x i k
    rw [SoundStep, SoundStep, soundPreds_same ps h]
  | .expr e ps, h => by
    rw [mentionsStep] at h
    funext x i k
    rw [SoundStep, SoundStep, means_same e (same_left h), sound_same e (same_left h), soundPreds_same ps (same_right h)]

theorem soundSteps_same : ∀ (ss : List Verif.XPathParse.Step), SameAt vars vars' (mentionsSteps ss) →
    SoundSteps w cv vars ss = SoundSteps w cv vars' ss
  | [], _ => by funext x i k; rw [SoundSteps, SoundSteps]
  | s :: ss, h => by
    rw [mentionsSteps] at h
    funext x i k
    rw [SoundSteps, SoundSteps, step_same s (same_left h), soundStep_same s (same_left h), soundSteps_same ss (same_right h)]

end

end

end Verif.Spec.XsltRun
