import Verif.Pipelines
import Verif.Inv

/-! Helper lemmas about the pipeline table. -/

namespace Tomato

theorem run_updatePip (n : String) (ps : List PipParam) (w : World) :
    runW (Tomato.updatePip n ps) w =
      (.ok ((w.pip? n).map (fun p => applyPip p ps)),
       { w with pips := updPips n ps w.pips }) := by
  simp only [runW, Tomato.updatePip, Prog.bind_eq, Prog.run_bind, Do.run_updatePip,
    exec_updatePip, Prog.andThen_ok, Do.run_getPip, exec_getPip, pip?_update]
  cases w.pip? n <;> simp

/-- The table with the row of one pipeline replaced. -/
def putPip (w : World) (p : PipState) : World :=
  { w with pips := w.pips.map (fun x => if x.name = p.name then p else x) }

theorem updPips_eq_putPip {w : World} (hw : w.WF) {n : String} {p : PipState}
    (hp : w.pip? n = some p) (ps : List PipParam) :
    ({ w with pips := updPips n ps w.pips } : World) = putPip w (applyPip p ps) := by
  obtain ⟨hn, hm⟩ := pip?_some hp
  unfold putPip updPips
  congr 1
  apply List.map_congr_left
  intro x hx
  rw [applyPip_name, hn]
  by_cases hxn : x.name = n
  · rw [if_pos hxn, if_pos hxn]
    have h1 := hw.pip?_mem hx
    rw [hxn, hp] at h1
    cases h1; rfl
  · rw [if_neg hxn, if_neg hxn]

end Tomato
