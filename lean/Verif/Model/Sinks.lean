import Verif.Model.Program

/-!
The attribute `deactivation_probability` of the file of locations, /repo/flee/flee.py:1680-1687.
-/

namespace Flee

/-- The cell under `deactivation_probability` of the `i`-th location, if its row has one. The attributes of a location are
those of its row, as text. Models: /repo/flee/InputGeography.py:473-503. -/
def sinkCell (g : Geo) (i : Nat) : Option String :=
  match g.locations[i]? with
  | none => none
  | some row =>
    match rowAttrs .attributeError g.columns 8 row with
    | .ok attrs => attrs.lookup "deactivation_probability"
    | .error _ => none

/-- The agent is deactivated or not by a comparison with the attribute of its camp.
Models: /repo/flee/flee.py:1682-1686. -/
def comparesText (g : Geo) (w : World) (a : Agent) : Bool :=
  !a.travelling && match a.place with
    | .loc i => (w.loc i).camp && (sinkCell g i).isSome
    | _ => false

/-- The comparison of a random number with the text of a cell. Models: `outcome < a.location.attributes.get(..)`,
/repo/flee/flee.py:1681-1687, which Python does not define for text. Simplification: it is done after the time step; `Eco.evolve`
stands for the loop of a location without the attribute, which gets 0.0 and deactivates nobody. -/
def sinkCheck (p : Script) (e : Eco) : Except Err Unit :=
  if p.c.campsAreSinks && e.agents.any (comparesText p.geo e.w) then .error .typeError else .ok ()

/-- The days of the program, with attributes of camps. Models: the loop /repo/runscripts/run.py:68-118. -/
def Script.daysSinks (p : Script) (camps : List (String × Nat)) : Nat → Nat → Sim → Except Err (List Day)
  | 0, _, _ => .ok []
  | n + 1, t, s => do
    let (z, k, s) ← p.day t s
    sinkCheck p s.e
    let row ← p.report camps t s
    let rest ← p.daysSinks camps n (t + 1) s
    return { zones := z, spawned := k, state := s, row := row } :: rest

/-- The program, with attributes of camps. Models: /repo/runscripts/run.py:12-120. -/
def Script.runSinks (p : Script) (draws spawnDraws : Nat → ℚ) : Except Err (Sim × List (String × Nat) × List Day) := do
  let (e, camps) ← p.setup draws
  let s : Sim := { e := e, d := p.data, draws := spawnDraws }
  let ds ← p.daysSinks camps p.endTime 0 s
  return (s, camps, ds)

end Flee
