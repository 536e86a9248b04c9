import Verif.Model.Eco

/-!
Simulations run by the tests of the repository.
-/

namespace Flee

/-- The settings of /repo/tests/test_1_agent.py:11-15: the standard ones, with other speeds. The third of them, for crossings of
borders, is read by no rule. -/
def oneAgentSettings : Cfg := { maxMoveSpeed := 5000, maxWalkSpeed := 5000 }

/-- The calls of /repo/tests/test_1_agent.py:20-27, before the agent is added. -/
def oneAgentSetup : List Op :=
  [.addLocation { name := ⟨"A", 0⟩, movechance := 3 / 10 }, .addLocation { name := ⟨"B", 1⟩, movechance := 0 },
   .addLocation { name := ⟨"C", 2⟩, movechance := 0 }, .addLocation { name := ⟨"D", 3⟩, movechance := 0 },
   .linkUp "A" "B" 100 false none 0, .linkUp "A" "C" 100 false none 0, .linkUp "A" "D" 100 false none 0]

/-- New agents at the first location each day, and then a time step. Models: the loops of /repo/tests/test_1_agent.py:29-38
(one agent before the first day), /repo/tests/test_toy_escape.py:32-40 (numbers of agents read from a file) and
/repo/tests/test_moving.py:104-112. -/
def dailyRun (c : Cfg) (fuel : Nat) : List Nat → Eco → Except Err Eco
  | [], e => .ok e
  | k :: ks, e => do
    let e ← (List.replicate k (Op.addAgent 0 [])).foldlM (fun e op => op.exec c e) e
    let e ← e.evolve c fuel
    dailyRun c fuel ks e

/-- The calls of /repo/tests/test_toy_escape.py:15-22, before the first day. Simplification: the settings
are those of the test with one agent, whose speed of crossings differs (no link is a crossing). -/
def toySetup : List Op :=
  [.addLocation { name := ⟨"A", 0⟩, movechance := 1 }, .addLocation { name := ⟨"B", 1⟩, movechance := 0 },
   .addLocation { name := ⟨"C", 2⟩, movechance := 0 }, .addLocation { name := ⟨"D", 3⟩, movechance := 0 },
   .linkUp "A" "B" 834 false none 0, .linkUp "A" "C" 1368 false none 0, .linkUp "A" "D" 536 false none 0]

/-- The settings of /repo/tests/test_moving.py:80-84: those of the test with one agent, and places abroad count nothing. -/
def foreignSettings : Cfg := { maxMoveSpeed := 5000, maxWalkSpeed := 5000, foreignWeight := 0 }

/-- The calls of /repo/tests/test_moving.py:87-96, before the first day. -/
def foreignSetup : List Op :=
  [.addLocation { name := ⟨"A", 0⟩, movechance := 1 }, .addLocation { name := ⟨"B", 1⟩, movechance := 0 },
   .addLocation { name := ⟨"C", 2⟩, movechance := 0 }, .addLocation { name := ⟨"D", 3⟩, movechance := 0, foreign := true },
   .linkUp "A" "B" 834 false none 0, .linkUp "A" "C" 1368 false none 0, .linkUp "A" "D" 536 false none 0]

/-- The settings of /repo/tests/test_camp_sink.py:11-16: those of the test with one agent, and camps deactivate agents. -/
def campSinkSettings : Cfg := { maxMoveSpeed := 5000, maxWalkSpeed := 5000, foreignWeight := 1, campsAreSinks := true }

/-- The calls of /repo/tests/test_camp_sink.py:21-25, before the agents are added. Simplification: the
chance of deactivation, set after the location is made (line 23), is given with the location. -/
def campSinkSetup : List Op :=
  [.addLocation { name := ⟨"A", 0⟩, movechance := 1 },
   .addLocation { name := ⟨"B", 1⟩, movechance := 0, foreign := true, deactProb := 1 }, .linkUp "A" "B" 100 false none 0]

/-- The calls of /repo/tests/test_tiny_closure.py:19-25, before the first day. The settings are the standard ones: lines 13-14 of
the file set attributes that no rule reads. -/
def tinySetup : List Op :=
  [.addLocation { name := ⟨"A", 0⟩, movechance := 1 }, .addLocation { name := ⟨"B", 1⟩, movechance := 0 },
   .addLocation { name := ⟨"C", 2⟩, movechance := 0 }, .linkUp "A" "B" 5 false none 0, .closeCamp "C"]

end Flee
