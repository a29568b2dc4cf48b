import Verif.Timeline.Lemmas
import Verif.Containers.Spec

/-! Property C11: the timeline is an ordered multimap of events. -/

namespace Yac.Timeline
variable {E : Type}

/-- C11: after any sequence of `add` calls, `timestamps` lists every added timestamp once
in increasing order; `get_events(ts)` lists exactly the events added at `ts`, in the order
in which they were added; `nb_events(ts)` is their number. -/
theorem C11_timeline (adds : List (Int × E)) (ts : Int) :
    Spec.Ascending (run adds).timestamps ∧
    (∀ t, t ∈ (run adds).timestamps ↔ ∃ e, (t, e) ∈ adds) ∧
    getEvents (run adds) ts = (adds.filter (fun a => a.1 = ts)).map Prod.snd ∧
    nbEvents (run adds) ts = (adds.filter (fun a => a.1 = ts)).length := by
  obtain ⟨h1, h2, h3, h4⟩ := run_inv adds
  have hr : equalRange (run adds) ts = adds.filter (fun a => a.1 = ts) := by
    rw [equalRange, range_filter _ _ h1, h4]
  exact ⟨h2, fun t => by rw [h3]; simp, by rw [getEvents, hr], by rw [nbEvents, hr]⟩

/-- C11: iterating the stored multimap visits the events in time order, and at each
timestamp in call order. -/
theorem C11_timeline_iteration (adds : List (Int × E)) :
    (run adds).data.Pairwise (fun a b => a.1 ≤ b.1) ∧
    ∀ ts, (run adds).data.filter (fun p => p.1 = ts) = adds.filter (fun p => p.1 = ts) :=
  ⟨(run_inv adds).1, (run_inv adds).2.2.2⟩

example : (run [(3, "a"), (1, "b"), (3, "c"), (2, "d")]).timestamps = [1, 2, 3] ∧
    getEvents (run [(3, "a"), (1, "b"), (3, "c"), (2, "d")]) 3 = ["a", "c"] := by decide

end Yac.Timeline
