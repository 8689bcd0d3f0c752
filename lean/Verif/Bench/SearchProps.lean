import Verif.Bench.LimitsProps
import Verif.Hpo.MergeProps

/-!
# Search and limits (C128)
-/

namespace ModSSC.Bench
open ModSSC ModSSC.Bench.Spec

/-- The configuration evaluated for a trial (bench/orchestrators/hpo.py:97-98); `raw` is the configuration after
`apply_limits` (bench/main.py:523-533, 846-851). -/
def trialConfig (raw patch : Dict) : Dict := Hpo.deepMerge raw patch

/-- The configuration of the final run, with the patch of the best trial (bench/main.py:852-862). -/
def finalConfig (parse : String → Option Int) (r : Resolved) (raw patch : Dict) : Dict :=
  (applyResolved parse r (Hpo.deepMerge raw patch)).1

/-- C128: the final run of a search keeps the limits. -/
theorem C128_final (parse : String → Option Int) (r : Resolved) (raw patch : Dict)
    (hok : DatasetOk (Hpo.deepMerge raw patch)) (pat : List Pat) (L : Int) (hpat : (pat, some L) ∈ table r.limits)
    (p : List Step) (hp : Matches pat p) (v : PyVal) (n : Int)
    (hv : lookup p (.dict (finalConfig parse r raw patch)) = some v) (hn : intValue parse v = some n) : n ≤ L :=
  C59_bound parse r _ hok pat L hpat p hp v n hv hn

theorem finalConfig_of_no_change (parse : String → Option Int) (r : Resolved) (raw patch : Dict)
    (hok : DatasetOk (trialConfig raw patch))
    (h : (applyResolved parse r (trialConfig raw patch)).2 = []) (pat : List Pat) (limit : Option Int)
    (hpat : (pat, limit) ∈ table r.limits) (p : List Step) (hp : Matches pat p) :
    lookup p (.dict (finalConfig parse r raw patch)) = lookup p (.dict (trialConfig raw patch)) := by
  by_contra hne
  obtain ⟨c, hc, -⟩ := (C59_report parse r _ hok).2 pat limit hpat p hp hne
  rw [h] at hc
  simp at hc

/-- C128, proved part: if the limits have nothing to change in the trial's configuration, then the trial obeyed every
limit and the final run has the trial's values at all limited places.  Missing: trials that exceed a limit are run
as they are (`C128_trials_violated`). -/
theorem C128_trials_partial (parse : String → Option Int) (r : Resolved) (raw patch : Dict)
    (hok : DatasetOk (trialConfig raw patch)) (h : (applyResolved parse r (trialConfig raw patch)).2 = []) :
    ∀ pat limit, (pat, limit) ∈ table r.limits → ∀ p, Matches pat p →
      lookup p (.dict (finalConfig parse r raw patch)) = lookup p (.dict (trialConfig raw patch)) ∧
      ∀ L v n, limit = some L → lookup p (.dict (trialConfig raw patch)) = some v → intValue parse v = some n → n ≤ L := by
  intro pat limit hpat p hp
  have e := finalConfig_of_no_change parse r raw patch hok h pat limit hpat p hp
  refine ⟨e, ?_⟩
  rintro L v n rfl hv hn
  exact C128_final parse r raw patch hok pat L hpat p hp v n (by rw [e, hv]) hn

/-- A configuration with a batch size limit of 64, and a search over larger batch sizes. -/
def demoSearchRaw : Dict := [("method", .dict [("params", .dict [("batch_size", .int 64)])])]
def demoSearchPatch : Dict := [("method", .dict [("params", .dict [("batch_size", .int 256)])])]
def demoSearchLimits : Resolved := ⟨none, none, some 64, none, none, none, none⟩

/-- C128 is violated: a trial runs with a batch size of four times the limit (and its score is reported as the score of
the best configuration), while the final run uses another batch size. -/
theorem C128_trials_violated :
    (applyResolved (fun _ => none) demoSearchLimits demoSearchRaw).1 = demoSearchRaw ∧
    lookup [.key "method", .key "params", .key "batch_size"] (.dict (trialConfig demoSearchRaw demoSearchPatch)) = some (.int 256) ∧
    lookup [.key "method", .key "params", .key "batch_size"]
      (.dict (finalConfig (fun _ => none) demoSearchLimits demoSearchRaw demoSearchPatch)) = some (.int 64) := by
  decide +kernel

example : (applyResolved (fun _ => none) demoSearchLimits (trialConfig demoSearchRaw
    [("method", .dict [("params", .dict [("batch_size", .int 16), ("lr", .flt (1 / 10))])])])).2.length = 0 := by
  decide +kernel

end ModSSC.Bench
