import Verif.Model.Eco

/-!
Specification vocabulary for comparing two runs.
-/

namespace Flee.Spec

open Flee

/-- The same string object with other text. -/
def renamedStr (f : String → String) (n : PyStr) : PyStr := ⟨f n.val, n.oid⟩

/-- The same operation with the names of locations replaced. Countries keep their names, and so do those in closure rows
for borders. -/
def renamedOp (f : String → String) : Op → Op
  | .addLocation a => .addLocation { a with name := renamedStr f a.name }
  | .linkUp n1 n2 d fo s k => .linkUp (f n1) (f n2) d fo s k
  | .addMajorRoute i route => .addMajorRoute i (route.map f)
  | .removeLink s t tw co => .removeLink (renamedStr f s) (renamedStr f t) tw co
  | .reopenLink s t tw => .reopenLink (renamedStr f s) (renamedStr f t) tw
  | .closeLocation fuel n tw => .closeLocation fuel (f n) tw
  | .reopenLocation fuel n tw => .reopenLocation fuel (f n) tw
  | .setForcedRedirection n1 n2 v => .setForcedRedirection (f n1) (f n2) v
  | .closeCamp n => .closeCamp (f n)
  | .openCamp n idp => .openCamp (f n) idp
  | .changeLocationType n ty => .changeLocationType (f n) ty
  | .addConflictZone n x ch => .addConflictZone (f n) x ch
  | .removeConflictZone n ch => .removeConflictZone (f n) ch
  | .setConflictIntensity n x ch => .setConflictIntensity (f n) x ch
  | .clearLocations names => .clearLocations (names.map f)
  | .setClosures rows => .setClosures (rows.map fun r =>
      if r.kind = "country" then r else { r with source := renamedStr f r.source, dest := renamedStr f r.dest })
  | .setFloodLevels t time => .setFloodLevels (t.map fun p => (f p.1, p.2)) time
  | .setForecasts t => .setForecasts (t.map fun p => (f p.1, p.2))
  | op => op

/-- The same operation in another unit of length: lengths and speeds of links are `lam` times as large. -/
def rescaledOp (lam : ℚ) : Op → Op
  | .linkUp n1 n2 d fo s k => .linkUp n1 n2 (lam * d) fo (s.map (lam * ·)) k
  | op => op

/-- The same settings in another unit of length. -/
def rescaledCfg (lam : ℚ) (c : Cfg) : Cfg :=
  { c with maxMoveSpeed := lam * c.maxMoveSpeed, maxWalkSpeed := lam * c.maxWalkSpeed,
           distanceSoftening := lam * c.distanceSoftening }

/-- The same operation for agents with other attributes. -/
def redressedOp (g : List (String × String) → List (String × String)) : Op → Op
  | .addAgent i at' => .addAgent i (g at')
  | .insertAgent i at' => .insertAgent i (g at')
  | op => op

/-- An entry of a table of attributes. -/
def attrIn (at' : List (String × String)) (key : String) : Option (String × String) := at'.find? fun p => p.1 = key

/-- The attributes that a rule that is on reads: the age if children avoid hazards, the gender if in addition boys do not, the awareness
of floods if forecasts are used. -/
def readsAttr (c : Cfg) (key : String) : Prop :=
  (key = "age" ∧ c.childrenAvoidHazards = true) ∨
  (key = "gender" ∧ c.childrenAvoidHazards = true ∧ c.boysTakeRisk = true) ∨
  (key = "floodawareness" ∧ c.flood.enabled = true ∧ c.flood.forecaster = true)

/-- What two runs agree on about an agent, apart from names and lengths: where it is and how it got there. -/
def sameJourney (a b : Agent) : Prop :=
  b.place = a.place ∧ b.home = a.home ∧ b.timesteps = a.timesteps ∧ b.places = a.places ∧ b.recent = a.recent ∧
    b.travelling = a.travelling

/-- What two runs agree on: time, places, numbers of agents, and the journey of every agent. -/
structure SameRun (e e' : Eco) : Prop where
  time : e'.w.time = e.w.time
  nLoc : e'.w.nLoc = e.w.nLoc
  nLink : e'.w.nLink = e.w.nLink
  numLoc : ∀ i, (e'.w.loc i).numAgents = (e.w.loc i).numAgents
  numLink : ∀ l, (e'.w.link l).numAgents = (e.w.link l).numAgents
  pop : ∀ i, (e'.w.loc i).pop = (e.w.loc i).pop
  roads : ∀ i, (e'.w.loc i).links = (e.w.loc i).links ∧ (e'.w.loc i).closedLinks = (e.w.loc i).closedLinks
  kinds : ∀ i, (e'.w.loc i).camp = (e.w.loc i).camp ∧ (e'.w.loc i).conflict = (e.w.loc i).conflict ∧
    (e'.w.loc i).score = (e.w.loc i).score
  draws : e'.w.draws = e.w.draws
  spawn : e'.spawnWeights = e.spawnWeights
  agents : List.Forall₂ sameJourney e.agents e'.agents

/-- A run: the operations are carried out one after the other; the first error ends it. -/
def outcome (c : Cfg) (draws : Nat → ℚ) (ops : List Op) : Except Err Eco := ops.foldlM (fun e op => op.exec c e) (Eco.empty draws)

/-- Both runs end in the same error, or both succeed and their results are related. -/
def AgreeOn (R : Eco → Eco → Prop) (x y : Except Err Eco) : Prop :=
  match x, y with
  | .error e, .error e' => e' = e
  | .ok r, .ok r' => R r r'
  | _, _ => False

/-- Results that differ in the names of locations only. -/
structure Renamed (f : String → String) (e e' : Eco) : Prop extends SameRun e e' where
  names : ∀ i, (e'.w.loc i).name = renamedStr f (e.w.loc i).name
  lengths : ∀ l, (e'.w.link l).dist = (e.w.link l).dist
  ways : List.Forall₂ (fun a b => b.travelled = a.travelled ∧ b.attrs = a.attrs ∧
    b.route = a.route.map fun | .name s => .name (f s) | .idx n => .idx n) e.agents e'.agents

/-- Results that differ in the unit of length only. -/
structure Rescaled (lam : ℚ) (e e' : Eco) : Prop extends SameRun e e' where
  names : ∀ i, (e'.w.loc i).name = (e.w.loc i).name
  lengths : ∀ l, (e'.w.link l).dist = lam * (e.w.link l).dist
  ways : List.Forall₂ (fun a b => b.travelled = lam * a.travelled ∧ b.moved = lam * a.moved ∧ b.dtol = lam * a.dtol ∧
    b.attrs = a.attrs ∧ b.route = a.route) e.agents e'.agents

/-- Results that differ in the attributes of agents only. -/
structure Redressed (g : List (String × String) → List (String × String)) (e e' : Eco) : Prop extends SameRun e e' where
  names : ∀ i, (e'.w.loc i).name = (e.w.loc i).name
  lengths : ∀ l, (e'.w.link l).dist = (e.w.link l).dist
  ways : List.Forall₂ (fun a b => b.travelled = a.travelled ∧ b.attrs = g a.attrs ∧ b.route = a.route) e.agents e'.agents

/-- A power: products go to products, positive numbers to positive numbers. Satisfied by `x ** k`. -/
structure IsPower (p : ℚ → ℚ) : Prop where
  mul : ∀ x y, 0 < x → p (x * y) = p x * p y
  pos : ∀ x, 0 < x → 0 < p x
  nonneg : ∀ x, 0 ≤ x → 0 ≤ p x

/-- All entries of a settings table that is there are non-negative. -/
def nonNegTable (t : Option (List ℚ)) : Prop := ∀ l, t = some l → ∀ x ∈ l, 0 ≤ x

/-- Settings without negative weights. -/
structure NonNegWeights (c : Cfg) : Prop where
  dist : IsPower c.distPow
  weight : IsPower c.weightPow
  distSoft : 0 ≤ c.distanceSoftening
  weightSoft : 0 ≤ c.weightSoftening
  foreign : 0 ≤ c.foreignWeight
  camp : 0 ≤ c.campWeight
  conflict : ∀ x, 0 ≤ c.conflictPow x
  home : ∀ x, 1 ≤ x → 0 ≤ c.homePow x
  pop : c.usePopForLocWeight = true → ∀ x, 0 ≤ c.popPow x
  locs : nonNegTable c.flood.locWeights
  days : nonNegTable c.flood.forecasterWeights
  aware : nonNegTable c.flood.awarenessWeights

/-- Links are made with non-negative lengths. -/
def longLinks : Op → Prop
  | .linkUp _ _ d _ _ _ => 0 ≤ d
  | _ => True

/-- Does the operation take all agents out of the simulation? -/
def clears : Op → Bool
  | .clearLocations _ => true
  | _ => false

end Flee.Spec
