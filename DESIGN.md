# Design of the flee verification

Subject: djgroen/flee, pinned in /repo (Python). The model lives in `lean/Verif/`
(Lean 4.33, Mathlib modules imported one at a time). Properties are listed in
`properties.jsonl`; the theorems for each property are listed in `MANIFEST.json`.

## Layout

* `Verif/Model/*`   the model: one Lean definition per Python function, each with a comment
                    giving file and lines in /repo and the simplifications made.
* `Verif/Spec/*`    small specifications, independent of the model's helper functions.
* `Verif/Lemmas/*`  helper lemmas.
* `Verif/Props/*`   the property theorems, each with an `example` meeting its hypotheses.

## Trusted base

* The Lean 4.33 kernel. Every theorem depends on at most `propext`, `Classical.choice`
  and `Quot.sound` (checked with `#print axioms`, and by the gate). No own axioms,
  no `sorry`, no `native_decide`, no `bv_decide`.
* The reading of the Python source: that each model definition means what the cited lines do.
* The following modelling conventions (repeated in the comment of each definition they touch):
  * Python floats are exact rationals (reals in Model/Geo). Rounding, overflow, inf and nan are not modelled.
    Theorems about boundaries (`<` against `<=`) are about the exact arithmetic reading.
  * `x ** p` with a float exponent is a parameter (an arbitrary function) where it occurs in
    the middle of an algorithm; a theorem that needs facts about it takes them as hypotheses,
    which are met by natural exponents (the default is 1.0), or uses `Real.rpow`.
  * The random generators are an arbitrary stream of draws: theorems quantify over all streams,
    with the hypothesis `0 <= draw < 1` where needed. `random.choices` and `numpy.random.choice`
    are modelled by their cumulative-sum-and-bisect algorithm.
  * Exceptions, assertion failures, `sys.exit` and missing attributes are error values.
    Loops or recursions that can diverge have a fuel argument and the error `fuel`;
    "terminates" is "for some fuel the result is not `fuel`", "diverges" is "for every fuel it is".
  * Objects that are shared or compared by identity (links, name strings) have explicit ids.
  * Printing is modelled where a property speaks of it (the table of a simulation, the logs of agents and
    links); other messages are not.

## What is modelled

| part of /repo | module | state |
|---|---|---|
| flee/flee.py Person, Location, Link, Ecosystem | Model/State, Model/Travel, Model/Network, Model/LocType, Model/Eco, Model/Attributes (sharing of attribute dictionaries), Model/Geo (`calculateDistance`) | modelled; Model/Logs has the logs of agents and links; without `printInfo`, `printComplete` |
| flee/moving.py | Model/Moving, Model/Flood | modelled, including personal attributes, floods and forecasts; ethnicity matching fails in the code (an unknown name) |
| flee/crawling.py | Model/Crawling | modelled |
| flee/scoring.py | Model/Scoring | modelled |
| flee/spawning.py | Model/Spawning, Model/Scoring | modelled; Model/Demographics has the reading of demographics and the drawing of attributes |
| flee/SimulationSettings.py | Model/Settings, Model/Scoring | `ReadFromYML` on a tree of YAML values (the YAML parser is trusted), decay lookup |
| flee/InputGeography.py | Model/Input | parsers on lists of rows (CSV splitting by Python's csv module is trusted), the tables of conflicts and of flood levels by day, storing, conflict and type schedules |
| flee/datamanager | Model/DataTable | modelled; calendar arithmetic of `datetime` is trusted |
| flee/pflee.py | Model/Parallel, Model/ParallelStep | placement, counters, synchronisation, work split, clearing, the time step on all processes; MPI collectives are their mathematical meaning |
| flee/coupling.py | Model/Coupling, Model/Protocol | message format, files, averaging, exchange; instances as processes that write, wait for and read files in any order |
| flee/postprocessing/analysis.py | Model/Analysis | error measures |
| runscripts/run.py, run_par.py | Model/Program, Model/ParProgram | the whole programs, with the table they print |
| flee/datamanager: dates, files, periods | Model/Dates, Model/DataFiles | calendar arithmetic and readers |
| flee/Diagnostics.py | Model/Logs | the lines of the logs of agents and links |
| flee/preprocessing/acled2locations.py | Model/Acled | from the table of events to the rows of conflict zones |
| flee/postprocessing: plot_flee_output.py, extract-validation-results.py, StoreDiagnostics.py | Model/Validation | the numbers they print |
| flee/pmicro_flee.py, multiscale/precipitation.py | Model/Weather | the length of links with weather coupling, thresholds, months |
| multiscale/run_mscale.py, flee/micro_InputGeography.py, logs of flee/coupling.py | Model/Multiscale, Model/Protocol | set-up of the coupled locations, readers, logs and tables; not the loop over the days, which calls functions that do not exist |

## Properties

For every property: what is proved and how. The statements are in `properties.jsonl`. A property is *partial* when the full
statement is false of the code or not fully proved; the theorem that ends in `_partial` then says what holds, and its comment says what
is missing. Theorems that end in `_false` prove with a concrete witness that the property fails.

### C01 Agent counters equal the agents actually present — proved

*How:* Invariant over all operations `Op` of a state machine, by induction over histories with an inner induction over agents and over the links an agent completes in a day. The counters are compared with a count over the list of agents.

* `Flee.C01_counters_agree` (Bookkeeping): C01. In every reachable state the counter of each location is the number of agents located or deactivated there, and the counter of each link object is the number of agents on it.
* `Flee.C01_counters_nonneg` (Bookkeeping): C01, last sentence. No counter is ever negative.

### C02 Visible totals account for every agent — partial

*How:* Consequence of C01: the sum over listed links differs from the number of agents by those on link objects that are not listed.

* `Flee.C02_visible_total_false` (Bookkeeping): C02 is false: closing a link while an agent travels on it replaces the link, in the lists of the location, by a copy with counter 0; the agent is then counted nowhere.
* `Flee.C02_visible_total_partial` (Bookkeeping): C02, what holds: the visible total falls short of the number of agents by exactly the agents on link objects that no location lists (any more).
* `Flee.C02_visible_total_open_partial` (Bookkeeping): C02 for histories in which no link is removed or closed. Missing from the full claim: histories with removals and closures, for which it is false (`C02_visible_total_false`).

### C03 A time step never creates or loses agents — proved

*How:* Induction over the agent loops of the time step.

* `Flee.C03_evolve_keeps_agents` (Bookkeeping): C03. A time step keeps the number of agents, their order and their attributes (and home locations), and advances the clock by one.

### C04 The travelling flag tells links from locations — proved

*How:* Invariant over all operations.

* `Flee.C04_travelling_flag` (Bookkeeping): C04. The travelling flag is set exactly for agents on links; an agent that is not travelling has covered no distance on its current link.

### C05 Link usage statistics never run backwards — proved

*How:* Relation between the states before and after each operation; the way of each agent in a day is a list of legal moves, whose entries are counted.

* `Flee.C05_cum_ge_num` (Bookkeeping): C05, always at least the number of agents on the link.
* `Flee.C05_cum_monotone` (Bookkeeping): C05, never decreases: over any further operations.
* `Flee.C05_cum_counts_entries` (Bookkeeping): C05, grows by one per entry: in a time step by the number of times agents enter the link on their ways through the network, and by nothing in any other operation.

### C06 No agent travels further than the configured daily maximum — partial

*How:* Invariant of the recursion of `finish_travel`; the witness is a computed run.

* `Flee.C06_daily_maximum_false` (Travel): C06 is false: 560 km in one time step with a maximum of 360 km.
* `Flee.C06_daily_maximum_partial` (Travel): C06, what holds: less than twice the largest speed that applies. Missing from the full claim: the factor two cannot be removed (`C06_daily_maximum_false`).

### C07 Distance accounting is exact — proved

*How:* Refinement of the recursion of `finish_travel` to a list of moves (`Spec/Travel`), on which distances are defined independently.

* `Flee.C07_distance_exact` (Travel): C07, first sentence. The way of an agent in a time step is a sequence `ps` of legal changes of position; the kilometres in its recent travel index are those advanced along this way, its distance travelled grows by the lengths of the links completed, and its number of places visited by the number of links completed.
* `Flee.C07_way_in_range` (Travel): C07, second sentence. With non-negative speeds and lengths a travelling agent has covered between nothing and the whole of its link.

### C08 A time step always finishes — partial

*How:* Fuel monotonicity and a decreasing measure (whole part of the distance left divided by the shortest link). Divergence: for every fuel the result is `fuel`.

* `Flee.C08_terminates_partial` (Termination): C08, what holds: if all links have positive length, a time step comes to an end, whatever the random numbers: there is one outcome (a new state or an exception) that is reached with every large enough bound on the number of links an agent completes. Missing from the full claim: links of length 0, for which it is false (`C08_terminates_false`).
* `Flee.C08_terminates_false` (Termination): C08 is false: with two towns at distance 0 an agent that keeps leaving goes back and forth for ever within one time step. In Python the recursion ends in a RecursionError.

### C09 Agents only move along existing links — proved

*How:* Every change of position in the step is a `Move` of the specification.

* `Flee.C09_moves_along_links` (Bookkeeping): C09. In a time step agents change position only by entering an open link that starts at their location, by going from an open link to its end, or by returning from a closed link to its start (`Move`); what follows is at most deactivation in a camp.

### C10 Closing a link sends travellers back — proved

*How:* Invariant on closed link objects, over one operation and over histories.

* `Flee.C10_closing_marks_link` (Bookkeeping): C10, first half. Whatever operation takes a link off the open links of its location marks that link object, on which travellers may be, as closed; removing a link for good is the only exception.
* `Flee.C10_closed_link_step` (Bookkeeping): C10, second half, one operation: an agent on a closed link stays there, the link stays closed, or the agent is back at the start of the link when the operation is over (unless all agents are cleared).
* `Flee.C10_closed_link_sends_back` (Bookkeeping): C10, second half, any further history: an agent on a closed link is still on it, or left it by being put back at the start of the link (or by the clearing of all agents).

### C11 Agents do not set out for a full camp — proved

*How:* Case analysis of the decision; the destination is the last waypoint of the route at departure.

* `Flee.C11_not_to_full_camp` (Departure): C11. When a decision makes an agent depart, the first location with the name of its final destination is not a full camp at that moment; with distinct names that is the destination itself.
* `Flee.C11_occupancy` (Departure): C11, in numbers: the camp holds at most the mean of buffer and capacity.

### C12 Move chance governs departures — proved

*How:* Case analysis of the decision, lifted to the time step by induction over the agents. The chance of leaving is specified apart from the code (`ChanceIs`), with floods and forecasts.

* `Flee.C12_no_chance_no_departure` (Departure): C12, first part, for one decision: without a chance of leaving nothing happens to the agent. The chance takes floods and flood forecasts into account.
* `Flee.C12_no_chance_stays` (Departure): C12, first part, for a time step: an agent at a location without a chance of leaving is still there at the end of the step.
* `Flee.C12_departure_below_chance` (Departure): C12 for an agent with a route, a link to its next waypoint and a destination that is not full: if the number drawn is below the chance of leaving, it departs along such a link and keeps the rest of its route.
* `Flee.C12_certain_departure` (Departure): C12, second part, for an agent with a route: with certainty of leaving, a link to its next waypoint and a destination that is not full, it departs along such a link and keeps the rest of its route.
* `Flee.C12_departure_planning` (Departure): C12, second part, for an agent that has to plan: with a random number below the chance, some open link and no full camp anywhere, every decision that returns is a departure.
* `Flee.C12_certain_departure_planning` (Departure): With certainty of leaving, this is so for all random numbers.

### C13 Deactivated agents stay put and stay counted — proved

*How:* Invariant over histories.

* `Flee.C13_deactivated_stay` (Bookkeeping): C13. An agent deactivated at a location stays deactivated there through all further operations, it stays in the list of agents at its position, and the counter of the location includes it.

### C14 Recent travel index stays in its documented range — partial

*How:* Invariant over histories: bound on the kilometres of a day.

* `Flee.C14_recent_travel_false` (Travel): C14 is false: after two days in a chain of towns the index is above 1.
* `Flee.C14_recent_travel_partial` (Travel): C14, what holds: the index is never negative and below `2 S / MaxMoveSpeed`, where `S` bounds the speeds; below 2 if no speed is above MaxMoveSpeed. Missing from the full claim: the bound 1, which is false (`C14_recent_travel_false`).

### C15 Capacity multiplier is a proper throttle — partial

*How:* Rational arithmetic, compared with a closed form.

* `Flee.C15_multiplier_is_throttle` (Choice): C15, closed form: for a buffer of at most 1 the multiplier is the throttle; no assertion fires and nothing is divided by zero.
* `Flee.C15_multiplier_range` (Choice): C15. The multiplier lies between 0 and 1, is 1 without a capacity and up to the buffer, and 0 from full capacity on where that is beyond the buffer.
* `Flee.C15_multiplier_antitone` (Choice): C15, non-increasing in occupancy.
* `Flee.C15_zero_when_full_false` (Choice): C15, the remark about full capacity fails at one point: with a buffer of exactly 1 a location filled exactly to capacity still has multiplier 1.
* `Flee.C15_zero_when_full_partial` (Choice): C15, zero from full capacity on for every buffer below 1. Missing from the full claim: the buffer 1, for which it is false (`C15_zero_when_full_false`).

### C16 Route weights become a probability distribution — proved

*How:* Rational arithmetic over lists.

* `Flee.C16_normalised` (Choice): C16. Normalised weights are non-negative, as many as before, sum to 1, keep their ratios if the sum is positive and are equal otherwise.

### C17 Chosen routes come from the candidates and never have zero weight when avoidable — proved

*How:* Induction over the list of weights; the intervals are stated with partial sums.

* `Flee.C17_choice_by_interval` (Choice): C17, first and third part. The draw selects the candidate in whose interval it falls, where the intervals follow each other and have the lengths of the shares; such a candidate exists for every draw in [0, 1).
* `Flee.C17_never_zero_weight` (Choice): C17, second part. If some weight is positive the chosen candidate has positive weight.

### C18 Candidate routes are walks in the open network — proved

*How:* Induction over the search; walks are an inductive predicate of the specification.

* `Flee.C18_reachable_wellFormed` (Routes): The networks of reachable states are well-formed, so that what follows applies to them. Within a time step the network does not change (`evolve_days`), so it applies there too.
* `Flee.C18_routes_are_walks` (Routes): C18. There are as many candidate routes as weights, and each route is the list of names along a walk over open links from the location of the agent to a location that is not a marker.

### C19 Candidate routes do not loop — partial

*How:* As C18, with names on the walk distinct.

* `Flee.C19_no_loops_false` (Routes): C19 is false: a link from a location to itself gives a route that visits it twice.
* `Flee.C19_no_loops_partial` (Routes): C19, what holds: without links from a location to itself no candidate route meets a name twice. Missing from the full claim: networks with self-links, for which it is false (`C19_no_loops_false`).

### C20 Awareness level bounds the search exactly — proved

*How:* Both inclusions between the result of the search and the loop-free walks of the specification, as multisets (each walk once).

* `Flee.C20_exactly_the_horizon` (Routes): C20. For a positive awareness level and without self-links, the search lists every loop-free walk over open links that ends at a location other than a marker and has at most awareness-level many stops that are not markers, each such walk once, and nothing else. The weight of a candidate is the weight of its last stop at the length of the whole walk.

### C21 Route generation terminates — proved

*How:* Measure: twice the number of names not yet met; the fuel given always suffices.

* `Flee.C21_search_terminates` (Routes): C21. The search ends: with the fuel it is given the recursion never runs out, and more fuel gives the same result. `score` is any way of scoring the end point that itself never runs out of fuel; that of the code has no recursion (`C21_scoring_terminates`).
* `Flee.C21_scoring_terminates` (Routes): C21, the scoring of the end points as the code does it satisfies the hypothesis of `C21_search_terminates`, so the search of every agent at every location ends.

### C22 Pruning keeps the best and drops exactly the poor routes — partial

*How:* The loop is compared with a filter on pairs.

* `Flee.C22_pruning_false` (Choice): C22 is false: of two candidates with the same route the first loses its route when the second is dropped.
* `Flee.C22_pruning_partial` (Choice): C22, what holds: for candidates with different routes pruning keeps exactly those with at least the maximum divided by the threshold, in order and with their routes; a threshold below 1.001 changes nothing. Missing from the full claim: candidates with equal routes (parallel links), for which it is false (`C22_pruning_false`), and the empty list, for which the code raises (`C22_empty_raises`).
* `Flee.C22_empty_raises` (Choice): C22, no candidates: the maximum of an empty list raises.
* `Flee.C22_best_kept_partial` (Choice): C22, the best candidate is kept, for candidates with different routes.

### C23 Awareness level 0 lets agents travel — partial

*How:* Invariant over histories: no agent leaves its location. C23_index: what is planned is the number of a link, each number for an equal share of random numbers.

* `Flee.C23_agents_move_false` (Departure): C23 is false, for every network, history and random outcome: with awareness level 0 no agent is ever anywhere but at the location where it was added.
* `Flee.C23_agents_move_partial` (Departure): C23, what holds: with any other awareness level an agent that is certain to leave and finds an open link departs, unless camps are full. Missing from the full claim: awareness level 0, for which it is false (`C23_agents_move_false`).
* `Flee.C23_index` (Departure): C23, what is planned with awareness level 0: the number of a link, each of the `n` numbers for the same share of random numbers, and not the name of a place.

### C24 Nearer and better destinations weigh more — proved

*How:* Monotonicity of the weight formula for power 1.

* `Flee.C24_weight_formula` (Choice): C24, the weight of a candidate with default powers.
* `Flee.C24_weight_monotone` (Choice): C24. The weight is non-negative; a longer way weighs strictly less unless the weight is 0 already; a higher score weighs at least as much, and strictly more unless the destination is full.

### C25 Fixed routes are followable — partial

*How:* Invariant of the table of routes through the whole crawl and the time step; weights compared with the best over all walks.

* `Flee.C25_followable_partial` (Crawling): C25, what holds: after a time step every stored route is the list of stops of a walk along open links from the location to the destination, or such a list that lacks its first stop, which only happens when there are major routes. Missing from the full claim: major routes, which lose their first stop (`C25_followable_false`).
* `Flee.C25_regular_followable` (Crawling): Without major routes all stored routes are followable.
* `Flee.C25_followable_false` (Crawling): C25 is false for major routes: with the major route A, B, C, D the stored route from A to D is C, D, and C is no neighbour of A.
* `Flee.C25_regular_best` (Crawling): Stored weights are exact and best: without major routes, each stored route has the weight of its walk, and no loop-free walk of at most `awareness` links to a destination that is not a marker weighs more than what is stored.

### C26 Location score composition — partial

*How:* Product form; order facts on the decay lookup.

* `Flee.C26_product` (Scoring): C26, first part: after a time step the attractiveness of every location is the product of the factors that apply to it; for a flood zone with a flood level, times the factor of floods.
* `Flee.C26_product_dry` (Scoring): C26, first part as claimed, for every location that is not a flood zone with a flood level.
* `Flee.C26_positive_partial` (Scoring): C26, second part, what holds: with positive weights the attractiveness is positive. Missing from the full claim: flood zones while a forecast is in use, for which it is false (`C26_positive_false`).
* `Flee.C26_positive_false` (Scoring): C26 is false in its second part: all weights are 1, a forecast is in use, and after a time step a flood zone with water in it has the attractiveness 0.
* `Flee.C26_aging_partial` (Scoring): C26, third part, what holds: if the decay factors never decrease (or none are set) and more conflict is never more attractive, then a longer lasting conflict never makes a location (without water) more attractive. Missing from the full claim: lists of decreasing factors, which is what the setting is for, see `C26_aging_false`.
* `Flee.C26_aging_false` (Scoring): C26 is false in its third part: with the decay list 1, 0 a conflict zone is four times as attractive 30 days later.

### C27 Linking is symmetric — proved

*How:* Explicit multiset of open roads before and after.

* `Flee.C27_linkUp_symmetric` (Network): C27: linking two known locations adds one road in each direction, with the same length, and changes nothing else.
* `Flee.C27_linkUp_unknown` (Network): C27: linking to or from an unknown name stops the program.

### C28 Closing then reopening a link restores the connection — partial

*How:* Open and closed roads as multisets (`Spec/Network`), filter by end points.

* `Flee.C28_close_reopen_false` (Network): C28 is false: a parallel link that was closed before is reopened too.
* `Flee.C28_close_reopen_partial` (Network): C28, what holds: between the two calls exactly the roads from the start to the end are missing, and afterwards the open roads are those from before together with the roads from start to end that were closed before. With none of those, the network is restored. Missing from the full claim: networks where such a road was closed already, for which the claim is false.

### C29 Two-way removal removes both directions — partial

*How:* As C28.

* `Flee.C29_twoway_false` (Network): C29 is false: a two-way removal leaves the link in the named direction.
* `Flee.C29_twoway_partial` (Network): C29, what holds: a two-way removal takes away exactly the links from the second location to the first. Missing from the full claim: the links from the first to the second, which stay.

### C30 Link operations work for equal names — partial

*How:* As C28, with explicit identities of strings: `is not` is modelled as inequality of ids.

* `Flee.C30_equal_names_false` (Network): C30 is false: with an endpoint string that is equal to the name but is another object, nothing is closed.
* `Flee.C30_equal_names_partial` (Network): C30, what holds: the start may be any string equal to a name. If the endpoint is the very string object of the name, closing, reopening and removing act on exactly the roads between the two locations; if it is a new object, they return that nothing was done, and no road changes. Missing from the full claim: endpoint strings that are equal to a name but are other objects, for which it is false.

### C31 A closed location is isolated — proved

*How:* Invariant of the closing loop.

* `Flee.C31_closed_location_isolated` (Network): C31: when `close_location` returns, no open road leaves the location, none leads into it from a location it was linked to, and roads that do not touch it are as before.
* `Flee.C31_closed_location_incoming` (Network): C31, one-way variant: `close_location` with `twoway=False` always returns and closes exactly the roads into the location from the locations it is linked to.

### C32 Reopening a location undoes closing it — partial

*How:* Composition of the two loops.

* `Flee.C32_reopen_location_false` (Network): C32 is false for the one-way variant: reopening brings nothing back.
* `Flee.C32_reopen_location_partial` (Network): C32, what holds: with the default two-way argument, closing and then reopening a location restores the open roads, and no closed ones remain. Missing from the full claim: the one-way variant, for which it is false.

### C33 Location closure operations terminate — partial

*How:* Measure for termination; divergence for all fuel by a loop invariant.

* `Flee.C33_closures_terminate_partial` (Network): C33, what holds, with distinct names: a two-way closure returns exactly for locations without a link to themselves, a one-way closure and a two-way reopening always return, and a one-way reopening returns exactly when the location has no closed link. Missing from the full claim: the other cases, which run forever.
* `Flee.C33_closures_terminate_false` (Network): C33 is false: closing a location that has a link to itself never returns, and neither does reopening one-way a location with closed links.

### C34 Border closure closes exactly the border — partial

*How:* Filter by countries on the multiset of roads; induction over locations.

* `Flee.C34_close_border` (Network): C34, closing: `close_border` returns, and afterwards the open roads are exactly those from before that do not cross the border.
* `Flee.C34_reopen_border_partial` (Network): C34, reopening, what holds: after closing and reopening, the open roads are those from before together with the roads across the border that had been closed before. With none of those, the open roads are restored. Missing from the full claim: networks with such roads, for which it is false.
* `Flee.C34_reopen_border_false` (Network): C34 is false for reopening: a road across the border that was closed before by itself is opened too.

### C35 Closure schedule — proved

*How:* Induction over days with the two theorems of C34.

* `Flee.C35_closure_schedule` (Network): C35: a border closure from day `start` to day `stop`, enacted once a day from day 0 on, keeps the border closed on exactly the days from `start` to before `stop`: on those days the open roads are the initial ones that do not cross the border, on all others they are the initial ones.

### C36 Operations on unknown locations have no effect — partial

*How:* Case analysis: an unknown name is used as index 0.

* `Flee.C36_unknown_false` (Kinds): C36 is false: closing a camp for an unknown name turns the first location into a town.
* `Flee.C36_unknown_partial` (Kinds): C36, what holds: for an unknown name closing or opening a camp, changing the type and removing or closing a link change no other location than the first, conflict operations and closures of locations change none, and linking stops the program. Missing from the full claim: the first location stays as it is.
* `Flee.C36_known` (Kinds): The same for operations on a known name: with distinct names they change exactly the named location.

### C37 Location kinds are exclusive — partial

*How:* Invariant over histories on the flags of locations.

* `Flee.C37_exclusive_partial` (Kinds): C37, what holds: with a conflict move chance of at least 0.005, no location is ever of two kinds as long as conflict operations are only applied to towns, conflict zones and locations without kind. Missing from the full claim: conflict operations on camps, forwarding hubs, markers and flood zones (`C37_exclusive_false`).
* `Flee.C37_exclusive_always_partial` (Kinds): In all states: at most one of camp, forwarding hub, marker and flood zone, never both town and conflict zone, and IDP camps are camps.
* `Flee.C37_exclusive_false` (Kinds): C37 is false: a conflict in a camp makes it a conflict zone without ending the camp.

### C38 Changing a location type takes effect — partial

*How:* Case analysis over type tags; specification gives flags per type.

* `Flee.C38_type_partial` (Kinds): C38, what holds: for every supported type but conflict zones the named location gets exactly the flags and move chance of the type and nothing else changes. Missing from the full claim: conflict zones (`C38_type_false`).
* `Flee.C38_type_false` (Kinds): C38 is false for conflict zones, always: the location loses its kind, then the program stops.

### C39 Conflict zones can be set and removed — proved

*How:* Pointwise description of all locations afterwards.

* `Flee.C39_set_conflict` (Kinds): C39: setting a conflict intensity (with the default of changing the move chance).

### C40 Conflict schedule is followed — partial

*How:* Induction over days, with the state of the previous day as invariant.

* `Flee.C40_schedule_false` (Input): C40 is false: a conflict that intensifies from 1 to 2 keeps the intensity 1.
* `Flee.C40_onset_partial` (Input): C40, what the code does: with entries that are zero or above 1e-6 and the location not in conflict before a zero on day 0, a location is in conflict exactly on the days with a positive entry, with the intensity of the first day of that conflict. Missing from the full claim: changes of intensity during a conflict (`C40_schedule_false`), and flood rules, with which the table is not looked at (`C40_flood_rules_ignore_conflicts`).
* `Flee.C40_constant_partial` (Input): C40 for tables in which a conflict keeps its intensity while it lasts.
* `Flee.C40_flood_rules_ignore_conflicts` (Input): C40 fails altogether with flood rules: an update never changes whether or how strongly a location is in conflict, whatever the table says.

### C41 Opening and closing camps — partial

*How:* Induction over lists of camp operations.

* `Flee.C41_camps_partial` (Kinds): C41, what holds: after a sequence of camp operations that ends with closing, a location is a plain town with the default move chance; after one that ends with opening it is a camp with no other kind, has the requested move chance, and is an IDP camp if that was requested; it is one without request only if it had been opened as one, or was one, and has not been closed since. Missing from the full claim: opening a camp without IDP status ends an earlier IDP status.
* `Flee.C41_idp_status_partial` (Kinds): IDP status after a sequence of camp operations: it was opened as IDP camp, or was one at the start, and has not been closed since.
* `Flee.C41_idp_false` (Kinds): C41 is false: a camp opened with IDP status and opened again without it keeps it.

### C42 Spawn weights cover exactly the right locations — proved

*How:* Pointwise description; stamps of conflicts lie in the past (invariant).

* `Flee.C42_spawn_weights` (Scoring): C42: spawn weights. There is one per location. It is 0 for a location without conflict and with conflict-driven spawning, otherwise it is population times conflict intensity, times the decay factor if a list is set; and it is not negative if populations and decay factors are not.
* `Flee.C42_spawn_weights_reachable` (Scoring): In reachable states the stamps of conflicts are in the past, so `C42_spawn_weights` applies, and computing the weights never fails.

### C43 Agents spawn only where the weight is positive — proved

*How:* Induction over the weights; intervals by partial sums.

* `Flee.C43_fails_iff` (Spawning): Drawing spawn locations fails exactly when the total weight is zero.
* `Flee.C43_interval` (Spawning): The `k`-th location drawn is `i` exactly when the draw, scaled by the total weight, falls into the interval of length `ws[i]` that starts at the sum of the weights before `i`.
* `Flee.C43_positive` (Spawning): Every location drawn exists and has positive weight.

### C44 Spawning follows the data without drift — proved

*How:* Induction over days, with arbitrary changes of the ecosystem in between.

* `Flee.C44_no_drift` (Spawning): C44: after any number of days the agents added, less the debt, are the sum of the daily changes in the data, without day 0 when agents are placed before the first day; and the debt is not negative. The ecosystem may change in any way between the days.
* `Flee.C44_follows_total` (Spawning): The same with the totals of the data: agents added less debt are the total on the last day, or its growth since day 0 when agents are placed before the first day or the table starts empty. Totals are those of the column "total".

### C45 Population is conserved when spawning takes from it — proved

*How:* Induction over histories, counting the spawned agents.

* `Flee.C45_conserved` (Population): C45: over any sequence of operations the counter of spawned agents of a location grows by the number of agents spawned there, and its population shrinks by the same number until it is used up.
* `Flee.C45_nonneg` (Population): C45, last part: no population ever drops below zero.

### C46 Conflict-driven spawning counts — proved

*How:* Induction over locations and over the agents added.

* `Flee.C46_counts` (Spawning): C46: with conflict-driven spawning at a rate that is not negative, the agents added at a location are the truncated rate (times intensity, and in the mode "pop_ratio" times population), none without conflict; all are placed at the location they are counted for, and the number returned is the number of agents added.
* `Flee.C46_returns` (Spawning): Conflict-driven spawning always returns.

### C47 Conflict decay table lookup is always in range — partial

*How:* Arithmetic of truncating division and `min`.

* `Flee.C47_lookup_partial` (Scoring): C47, what holds: with a positive interval and non-negative elapsed time the lookup returns 1 without a decay list, otherwise an entry of the list: the one of the interval that has been reached, the last one after the end of the list. Missing from the full claim: interval 0, for which the lookup fails (`C47_lookup_false`).
* `Flee.C47_lookup_false` (Scoring): C47 is false for interval 0: the lookup divides by it.

### C48 Interpolated data is exact at data points and bounded in between — proved

*How:* Induction over rows; the curve is a relation of the specification.

* `Flee.C48_curve` (Data): The interpolated count is the value of the curve through the rows, truncated.
* `Flee.C48_curve_defined` (Data): The curve has a value on every day.
* `Flee.C48_exact` (Data): On the day of a row the count is the truncated count of the row.
* `Flee.C48_between` (Data): Between two neighbouring rows the count lies between their truncated counts.
* `Flee.C48_outside` (Data): Before the data start the count is the truncated first count, after they end the truncated last count.
* `Flee.C48_raw` (Data): Without interpolation the count is the truncated count of the last row up to that day, and before the data start the truncated first count.

### C49 Daily differences add up — partial

*How:* Telescoping sums over days.

* `Flee.C49_total` (Data): With totals from the column "total" the claim holds.
* `Flee.C49_camps_partial` (Data): With totals summed from the camps, day 0 counts the first column too, so the sum is too large by its value on day 0; when the table starts empty the sum is the growth since day 0. Missing for the full claim: the sum without that value.
* `Flee.C49_empty` (Data): A table that starts empty reports, in the mode "total", the growth since day 0.
* `Flee.C49_defined` (Data): The differences of a complete table exist on all days.
* `Flee.C49_camps_false` (Data): The claim is false when totals are summed from the camps: a table with ten people in one camp reports twenty on day 0.

### C50 Retrofitted refugee totals — partial

*How:* Induction over rows with a loop invariant.

* `Flee.C50_correction_partial` (Data): With no day-0 population, and a row on the day after a row of at least one, the correction retrofits the table: rows before the day are scaled by one factor that makes the curve continuous, later rows are kept, and the order of the counts before the day is kept. Missing for the full claim: tables with a day-0 population, and days without such rows.
* `Flee.C50_negative` (Data): A negative day means no correction.
* `Flee.C50_no_row` (Data): Days that are not the day of a row other than the first make the correction fail.
* `Flee.C50_correction_false` (Data): The claim is false: with a day-0 population the scaled curve is not continuous; without a row on the day the correction fails.

### C51 Adding data tables adds the counts — partial

*How:* Induction over both tables with an invariant on the row reached.

* `Flee.C51_add_partial` (Data): When the second table does not start after the first, the result has a row for every day of the first table up to the end of the second, and every row on a day of the first table has the sum of its count and of the latest count of the second table on or before that day. Missing for the full claim: interpolation of the second table between its days, days after its end, and second tables that start later.
* `Flee.C51_common_partial` (Data): On the days that are in both tables the claim holds: the result has the sum of the two counts.
* `Flee.C51_late_start` (Data): A second table that starts after the first makes the addition fail.
* `Flee.C51_add_false` (Data): The claim is false: it fails for a second table that starts later; a day after the end of the second table is lost; between its days the second table is not interpolated.

### C52 Each link row creates one connection — partial

*How:* Induction over rows; roads as multisets.

* `Flee.C52_one_connection_false` (Input): C52 is false: a row with the flag 1 makes two connections, a redirecting one and an ordinary one.
* `Flee.C52_one_connection_partial` (Input): C52 for the flags 0 and 2 (and empty or missing flags): every row makes one connection, in table order; the flag 2 reverses it and forces redirection. Missing from the full claim: the flag 1 (`C52_one_connection_false`).
* `Flee.C52_flag_one` (Input): C52, what the code does with the flag 1: a redirecting connection and an ordinary one, both in the given direction.

### C53 Comment and header lines are ignored in every input file — partial

*How:* Induction over rows; comments are defined in the specification.

* `Flee.C53_corrections_false` (DataFiles): C53 is false for the file of corrections: a comment of two or more cells makes the program stop.
* `Flee.C53_comments_false` (Input): C53 is false: commented lines become major routes.
* `Flee.C53_agents_false` (Input): C53 is also false for agents: a comment before the header makes the header an agent row, and the program stops.
* `Flee.C53_comments_partial` (Input): C53 for locations, links, closures and location changes: exactly the lines with data are kept, in order, and reading succeeds unless a line has an empty first cell. Missing from the full claim: major routes (`C53_comments_false`) and agents (`C53_agents_false`).
* `Flee.C53_columns` (Input): C53, column names: a commented line of the file of locations with more than eight cells names further columns, the first eight being fixed; without such a line there are no column names. In the file of links this is so from the fifth cell on, and any commented or empty line gives the fixed names.
* `Flee.C53_major_kept` (Input): C53, what the code does with major routes: every line is kept.
* `Flee.C53_agents_partial` (Input): C53 for agents, when the header is the first line: comments make no difference.

### C54 Every agent row becomes one agent — partial

*How:* Induction over rows.

* `Flee.C54_one_agent_false` (Input): C54 is false: a comment before the header.
* `Flee.C54_one_agent_partial` (Input): C54 for files that begin with the header. Missing from the full claim: comments before the header (`C54_one_agent_false`).
* `Flee.C54_attributes` (Input): C54: with distinct column names each attribute of the agent is the cell of its row under that name.

### C55 Conflict names come from the location type — partial

*How:* Induction over rows.

* `Flee.C55_names_false` (Input): C55 is false: the fifth column, tested by the code, is the latitude; the type is in the sixth.
* `Flee.C55_empty` (Input): C55, what the code does: if no latitude contains the word conflict, the list is empty.
* `Flee.C55_names_partial` (Input): C55 for tables without conflict zones, and latitudes that do not contain the word conflict. Missing from the full claim: all tables with conflict zones (`C55_names_false`).
* `Flee.C55_latitude` (Input): C55, what the code does in general: the names are those of the rows whose latitude contains the word conflict, in order.
* `Flee.C55_file` (Input): C55 with a conflict file: the names are the columns of that file.

### C56 Foreign classification — proved

*How:* Induction over rows, through `C67`.

* `Flee.C56_foreign` (Input): C56: the location made from a row is foreign exactly if its country is not that of the first row.

### C57 Parallel agent placement is balanced and complete — proved

*How:* Arithmetic of `%`; simulation of all processes by one counter. `C57_enough` and `C57_taken` (Props/ParallelAdd.lean) say exactly when agents can be taken from the populations and what is left of them.

* `Flee.C57_inserted` (Parallel): C57: when agents are inserted on `k` processes that agree on the total, the agents created on all processes together are exactly the given ones, each once, and the numbers created on two processes differ by at most one.
* `Flee.C57_added` (Parallel): C57 for `addAgent`, with agents taken from the population: the processes agree on populations, so that the call fails on all of them or on none, and the agents are placed as in `C57_inserted`.
* `Flee.C57_enough` (ParallelAdd): C57: agents that are taken from the populations are added exactly if every location they come from has more inhabitants than agents taken: the last inhabitant never leaves. Whether it is possible does not depend on the process or on the number of processes.
* `Flee.C57_taken` (ParallelAdd): The populations are then smaller by the numbers of agents taken.

### C58 Parallel counters agree with the sum over processes — partial

*How:* Both modes are compared with the sum over processes; packing and unpacking are inverse by induction over locations and links.

* `Flee.C58_no_locations_false` (Parallel): C58 is false of the code: without any location the buffered mode stops at an assertion, the other mode does not.
* `Flee.C58_low_latency` (Parallel): C58 for the unbuffered mode, without restriction.
* `Flee.C58_synchronised_partial` (Parallel): C58 with at least one location. Missing from the full claim: the network without locations (`C58_no_locations_false`).

### C59 Parallel work split covers every location once — proved

*How:* Arithmetic of `/`, `%` and `min`; partial sums of the sizes are the starts of the ranges.

* `Flee.C59_ranges` (Parallel): C59, ranges: every location belongs to exactly one process, a process owns no other numbers, and the sizes differ by at most one.
* `Flee.C59_gathered` (Parallel): C59, gathering: with two scores per location the gathered array holds, for every location, the scores that its process computed.

### C60 Coupling messages round-trip — partial

*How:* Splitting and joining of character lists; printing and reading of integers are inverse.

* `Flee.C60_comment_false` (Coupling): C60 is false of the code: the line of a name that begins with `#` is taken for a comment.
* `Flee.C60_file_partial` (Coupling): C60 for names that are not empty and do not begin with `#`. Missing from the full claim: the empty name and names that begin with `#` (`C60_comment_false`).
* `Flee.C60_message_partial` (Coupling): C60 for a message that is not passed through a file.
* `Flee.C60_manager_partial` (Coupling): C60 for the message of a manager, which is made from numbers by name.
* `Flee.C60_blanks` (Coupling): A message from elsewhere may have blanks around the number, and more cells behind it.

### C61 Coupling conserves agents — partial

*How:* C60 and C62 composed, counting agents on both sides.

* `Flee.C61_lost_false` (Coupling): C61 is false of the code: the agent in a town that only takes agents in is removed and not sent to the other side.
* `Flee.C61_elsewhere_error` (Coupling): C61 is false in another way: an agent elsewhere makes the exchange fail, since `clearLocationsFromAgents` cannot keep it.
* `Flee.C61_exchange_partial` (Coupling): C61 when all agents are at coupled locations that send. Missing from the full claim: agents at locations that only take agents in (`C61_lost_false`) and agents elsewhere (`C61_elsewhere_error`).
* `Flee.C61_due` (Coupling): C61: models exchange agents on the days that are multiples of the interval of the first coupled location, whatever the intervals of the others are; without coupled locations, or with an interval of 0, they raise.
* `Flee.C61_no_locations` (Coupling): C61 on several processes: with the high-latency exchange of numbers, a program without locations fails an assertion; with the other exchange it does not.
* `Flee.C61_parallel_partial` (Coupling): C61 on several processes: the agents at the coupled locations are removed, all others stay where they are, in order, and the agents received are created, each once. Afterwards every process knows the numbers of agents of all locations.

### C62 Clearing locations removes exactly their agents — partial

*How:* Induction over agents.

* `Flee.C62_kept_false` (Clearing): C62 is false of the code: keeping the agent in town A when town B is cleared raises an exception.
* `Flee.C62_all_partial` (Clearing): C62 when every agent is at a named location. Missing from the full claim: any agent elsewhere (`C62_kept_false`, `C62_all_or_error`).
* `Flee.C62_all_or_error` (Clearing): C62, what the code does otherwise: if clearing succeeds, no agent was deactivated or at a location that is not named, and no agent is left.
* `Flee.C62_parallel_clear` (Parallel): C62 on one of several processes: if no agent is deactivated, exactly the agents at places with other names are kept, in order, and the counter of every place goes down by the number of agents removed there.
* `Flee.C62_parallel_deactivated` (Parallel): C62 on several processes fails for a deactivated agent.

### C63 Settings keys have their documented effect — partial

*How:* Lookup in the tree; every documented key is compared with a table of keys and defaults.

* `Flee.C63_camps_are_sinks_false` (Settings): C63 is false: `camps_are_sinks` has no effect.
* `Flee.C63_camps_are_sicks` (Settings): C63, what the code does: the key that is read is `camps_are_sicks`; without it camps never are sinks.
* `Flee.C63_taken` (Settings): C63 for values of any sort: each documented key but `camps_are_sinks` gives the setting the value in the file, converted to the sort of the setting, or the default if the section does not have the key; and files with other values or sections are not read.
* `Flee.C63_documented_partial` (Settings): C63 for all documented keys but `camps_are_sinks`, which is missing from the full claim (`C63_camps_are_sinks_false`).

### C64 Error measures — partial

*How:* Rational arithmetic of rounding to four digits.

* `Flee.C64_zero_data_false` (Analysis): C64 is false: the relative error is zero if the data is zero, whatever the simulation says.
* `Flee.C64_zero_data` (Analysis): C64, what the code does when the data is below 1e-5: the relative error is zero.
* `Flee.C64_rounding_false` (Analysis): C64 is false also for positive data, in both directions: 100000 and 100001 have relative error zero, and the relative error of 100006 to 100000 is more than the difference divided by the data.
* `Flee.C64_single_partial` (Analysis): C64 for single values. The relative error is never negative, zero if simulation and data agree; for data from 1e-5 on it is zero exactly if they differ by at most 1/20000 of the data, and is the difference divided by the data up to 1/20000. The absolute error of whole numbers is their distance. Missing from the full claim: data below 1e-5 (`C64_zero_data_false`) and exactness (`C64_rounding_false`).
* `Flee.C64_multiples` (Analysis): C64: the errors are whole multiples of 1/10000, the nearest to the exact value; of two that are equally near, the even one.
* `Flee.C64_whole` (Analysis): C64: the absolute error of whole numbers is their distance, hence zero exactly if they are equal.
* `Flee.C64_lists_partial` (Analysis): C64 for lists: the mean difference is never negative, zero if the lists agree, zero exactly if the exact mean is at most 1/20000, and within 1/20000 of it; the differences of whole numbers are exact. Missing from the full claim: exactness of the mean.
* `Flee.C64_mean` (Analysis): C64 for lists: the mean difference is the nearest multiple of 1/10000, and there is none for empty lists.
* `Flee.C64_scaled` (Analysis): C64 for the scaled error: when it is a number it is never negative, zero if the forecast is exact, and one up to rounding if the forecast errs as much on average as the naive one.

### C65 IDP totals — proved

*How:* From C01.

* `Flee.C65_idps` (Population): C65: the number of internally displaced is the number of agents at IDP camps, and is at most the number of agents.

### C66 Exported graph reflects the open network — proved

*How:* Multiset of edges.

* `Flee.C66_exported_graph` (Network): C66: the exported vertices are the names of the locations, each once and in order; every edge joins two locations; and an edge occurs as often as there are open links with its ends and length.
* `Flee.C66_exported_links_open` (Network): C66: the links behind the exported edges start where they are listed and are open.

### C67 Every location row becomes one location — proved

*How:* Induction over rows, pointwise description of the locations.

* `Flee.C67_locations` (Input): C67: every row makes one location, in table order, with the country and the (scaled) population of the row: as capacity of a camp, as population otherwise. Locations that were there before are kept.

### C68 Accepted settings are consistent — proved

*How:* Case analysis of the reader.

* `Flee.C68_consistent` (Settings): C68: settings that are accepted are consistent.

### C69 Settings depend on the file alone — partial

*How:* Case analysis of the reader, two earlier settings compared.

* `Flee.C69_earlier_false` (Settings): C69 is false: with flood-driven spawning and no flood rules the flood tables of an earlier file stay in use.
* `Flee.C69_earlier_partial` (Settings): C69 when floods do not drive spawning or flood rules are given: settings in use depend only on the file. Missing from the full claim: flood-driven spawning without flood rules (`C69_earlier_false`).

### C70 Flood rules come with their tables — partial

*How:* Case analysis of the reader.

* `Flee.C70_flood_tables_false` (Settings): C70 is false: flood-driven spawning enables the flood rules without a section for them.
* `Flee.C70_flood_tables_partial` (Settings): C70 when floods do not drive spawning or there is a section of flood rules. Missing from the full claim: flood-driven spawning without that section (`C70_flood_tables_false`).

### C71 Parallel count of spawned agents — partial

*How:* Sum over processes of equal counters.

* `Flee.C71_spawned_times` (Parallel): C71, what the code does: the number is multiplied by the number of processes.
* `Flee.C71_spawned_false` (Parallel): C71 is false of the code: one agent spawned on two processes is counted twice.
* `Flee.C71_spawned_partial` (Parallel): C71 on one process. Missing from the full claim: several processes (`C71_spawned_false`).

### C72 Parallel score array fits the ecosystem — partial

*How:* Recursion over the number of locations.

* `Flee.C72_second_ecosystem_false` (Parallel): C72 is false of the code: the array is kept from one ecosystem to the next.
* `Flee.C72_first_partial` (Parallel): C72 for the first ecosystem of a program. Missing from the full claim: later ecosystems (`C72_second_ecosystem_false`).
* `Flee.C72_length` (Parallel): C72, what the code does: a later ecosystem adds two scores for each location but one to what was there.
* `Flee.C72_scores_lost` (Parallel): C72, consequence: in a second ecosystem of two locations after one of three, on two processes, the scores that process 1 computed for its location 1 are replaced by what process 0 has there.

### C73 Parallel IDP totals — partial

*How:* Sum over processes of equal totals.

* `Flee.C73_times` (Parallel): C73, what the code does: the sum over the IDP camps is multiplied by the number of processes.
* `Flee.C73_idps_false` (Parallel): C73 is false of the code: ten agents in one IDP camp are twenty on two processes.
* `Flee.C73_idps_partial` (Parallel): C73 on one process. Missing from the full claim: several processes (`C73_idps_false`).

### C74 Several coupled instances are averaged — partial

*How:* Induction over instances and names.

* `Flee.C74_missing_name_false` (Coupling): C74 is false of the code: a name that the first instance does not send raises an exception.
* `Flee.C74_mean_partial` (Coupling): C74 when all instances have the same coupled locations. Missing from the full claim: instances that send different names (`C74_missing_name_false`).

### C75 Indirect coupling leaves agents in place — partial

*How:* Case analysis of the direction.

* `Flee.C75_indirect_false` (Coupling): C75 is false of the code: the agent of town A is replaced by the five agents received.
* `Flee.C75_indirect_same` (Coupling): C75, what the code does: the direction "inout indirect" means the same as "inout".
* `Flee.C75_same_number_partial` (Coupling): C75 as far as it holds: the number of agents stays the same if the other side sends the number of agents that are there and all agents are there. Missing from the full claim: other numbers (`C75_indirect_false`) and other agents.

### C76 Flood levels follow the table — proved

*How:* Induction over the locations of the loop; frame: the new state is the old one with only these two fields changed.

* `Flee.C76_levels` (Flood): C76: with flood rules, an update gives every location the flood level that the table has for it on the day, and with a forecaster all levels that the table has for it, and changes nothing else.

### C77 Day tables are read cell by cell — partial

*How:* Induction over rows and over the cells of a row, for both readers at once (polymorphic in the parser of a cell).

* `Flee.C77_cells_false` (Flood): C77 is false: the row of day 1 has no cell for B, so the 3 of day 2 is taken for day 1.
* `Flee.C77_columns` (Flood): C77, what holds of every table: the columns are the names in the first row, and a column has the values of the cells below its name, row by row, leaving out rows that end before it.
* `Flee.C77_cells_partial` (Flood): C77 for tables whose rows are all as long as the first: the entry of a day is the cell below the name of the location in the row of the day, and there are no others. Missing from the full claim: tables with shorter rows (`C77_cells_false`).
* `Flee.C77_returns` (Flood): C77: a table whose rows are not longer than the first is read if all its cells, other than the first column, are numerals.

### C78 Flood rules read the flood levels — partial

*How:* Case analysis of the condition for reading; the witness is a settings file that is read by the model of `ReadFromYML`.

* `Flee.C78_levels_read_false` (Flood): C78 is false: a file that has flood rules and no flood-driven spawning.
* `Flee.C78_no_levels_no_update` (Flood): C78: without flood levels, every update with flood rules fails.
* `Flee.C78_levels_read_partial` (Flood): C78 when floods drive spawning: what is read are the flood levels in the file, for the present level and for the forecast. Missing from the full claim: flood rules without flood-driven spawning (`C78_levels_read_false`).
* `Flee.C78_nothing_read_partial` (Flood): C78 with flood rules and without flood-driven spawning: nothing is read, not even the conflicts, although there is a file of conflicts. Missing from the full claim: see above.
* `Flee.C78_runs` (FloodRuns): C78 for whole runs: if the file of settings turns flood rules on and does not have floods drive the spawning, then no run of at least a day comes to its end, whatever the other files are.

### C79 Flood level sets the chance to leave — proved

*How:* The chance is characterised by the relation `ChanceIs`; the decision to depart then by cases.

* `Flee.C79_flooded` (Flood): C79, first part: with flood rules and no forecast in use, the chance of leaving a location under water is the entry of its level in the table, not the chance of the location.
* `Flee.C79_dry` (Flood): C79, second part: the chance of leaving a location that is not under water is the usual one.

### C80 Entries for level 0 are ignored — partial

*How:* Each place where a table is looked up is characterised by a relation on table entries, in which level 0 does not occur.

* `Flee.C80_level_zero_false` (Flood): C80 is false: a flood zone without water, and a town, each next to the town with the agent. With the entry 1 for level 0 the agent goes to the flood zone, with the entry 0 to the town.
* `Flee.C80_level_zero_partial` (Flood): C80, what holds: the entries for level 0 do not influence the chance to leave, nor the score of a destination with given attractiveness, nor the attractiveness of a location that is no flood zone or is under water. Missing from the full claim: the attractiveness of a flood zone without water, which is multiplied with the entry for level 0 (`C80_level_zero_false`).

### C81 Flood weights multiply the location weight once — partial

*How:* The score of a destination is characterised as a product of its factors.

* `Flee.C81_weight_false` (Flood): C81 is false: for a flood zone the weight is applied twice.
* `Flee.C81_weight_partial` (Flood): C81 for a destination that is not a flood zone: its score is the score without the water times the location weight of the level. Missing from the full claim: flood zones (`C81_weight_false`, `C81_flood_zone_twice`).
* `Flee.C81_flood_zone_twice` (Flood): C81, what the code does for a flood zone: the location weight counts twice.

### C82 A forecast without flood changes nothing — partial

*How:* From the relation `ChanceIs`: the factor of the forecast is 0.

* `Flee.C82_nobody_leaves` (Flood): C82, what the code does: nobody leaves a location when a forecast is in use that expects no flood there, and an agent that gives the forecast no weight does not leave anywhere.
* `Flee.C82_no_flood_false` (Flood): C82 is false.
* `Flee.C82_no_flood_partial` (Flood): C82 while no forecast is in use, for every agent and every location. Missing from the full claim: a forecast in use, for which the claim is false unless the chance is 0 anyway (`C82_no_flood_false`, `C82_nobody_leaves`).

### C83 A forecast is used for its whole timescale — partial

*How:* From the relation `ChanceIs` for both settings.

* `Flee.C83_timescale_partial` (Flood): C83 for timescales of more than one day, and for a timescale of no days, which has no effect. Missing from the full claim: a timescale of exactly one day, which has no effect either (`C83_one_day_false`).
* `Flee.C83_one_day_false` (Flood): C83 is false for a timescale of one day: no flood is expected for tomorrow, yet the chance is the usual one, not 0.

### C84 Forecast weights count from today — partial

*How:* As C83; on day 0 both ways of counting days agree.

* `Flee.C84_weights_partial` (Flood): C84 on day 0. Missing from the full claim: all later days, on which the code takes the weights of the days of the simulation instead (`C84_weights_false`, `C83_timescale_partial`).
* `Flee.C84_weights_false` (Flood): C84 is false: on day 1 the weight of tomorrow is that of day 2.

### C85 Flood-driven spawning follows the levels — proved

*How:* Induction over locations and over the agents added; the population by C45.

* `Flee.C85_counts` (Spawning): C85: with flood-driven spawning the agents added at a location are the truncated entry of its flood level (in the mode "pop_ratio" times its population), none where there is no water; all are placed at the location they are counted for, and the number returned is the number of agents added. If they are taken from the population, it shrinks by their number, so that the rate of the next day applies to those who remain.

### C86 An agent on a link advances by the speed of the day — proved

*How:* Invariant of travelling agents; the draw is located in the stream by induction over the agents of the time step.

* `Flee.C86_speed_of_the_day` (Travel): C86: in a time step an agent on a link advances by the speed of the day, which is the walking speed, the speed of the link or the general speed according to `SpeedOn`, with a number from the random stream. If this does not bring it beyond the end of the link it is that much further on the link afterwards; otherwise it completes the link, and is back at its start if the link is closed.

### C87 Attributes belong to one location — partial

*How:* A heap of attribute dictionaries with explicit identities; invariant that dictionaries in use are different, by induction over the calls.

* `Flee.C87_isolation_false` (Attributes): C87 is false: two locations that are added without attributes share them.
* `Flee.C87_isolation_partial` (Attributes): C87 if every call so far that made locations and links was given attributes of its own, as all calls are that come from input files. Missing from the full claim: locations added without attributes (`C87_isolation_false`).
* `Flee.C87_links_partial` (Attributes): C87 for links, under the same condition: the attribute changes for both directions of the road and for nothing else.
* `Flee.C87_kinds_partial` (Attributes): C87, after any calls: setting an attribute of a location sets it there and leaves all links as they are. Missing from the full claim: other locations (`C87_isolation_false`).
* `Flee.C87_link_kinds_partial` (Attributes): C87 for links, after any calls: setting an attribute of a link leaves all locations as they are. Missing from the full claim: other links.

### C88 An update from a table reaches every location — partial

*How:* As C87, with induction over the locations for the update.

* `Flee.C88_update_false` (Attributes): C88 is false: both locations have the value of the second.
* `Flee.C88_update_partial` (Attributes): C88 if every call so far was given attributes of its own: after the update every location has the value that the table gives to it, its other attributes are as before, and so are those of the links. Missing from the full claim: locations added without attributes (`C88_update_false`).
* `Flee.C88_returns` (Attributes): The update succeeds if the table has an entry for the day for each of its names.

### C89 Distance as the crow flies is the great-circle distance — proved

*How:* The haversine formula over the reals is shown to be the angle between the direction vectors (Mathlib's `InnerProductGeometry.angle`).

* `Flee.C89_great_circle` (Geo): C89: the distance as the crow flies between two locations is the length of the shortest way on a globe of radius 6371 km between the points with their `y` as latitude and their `x` as longitude.
* `Flee.C89_distance` (Geo): C89: it is a distance: not negative, symmetric, 0 from a point to itself, not more than half the circumference, and no detour is shorter.

### C90 Distances of input locations use latitude and longitude — partial

*How:* What storing creates (C52), and C89. The fourth column is used as the longitude.

* `Flee.C90_coordinates_false` (Geo): C90 is false: the first coordinate is used as the longitude.
* `Flee.C90_coordinates_partial` (Geo): C90 for rows with longitudes in the fourth and latitudes in the fifth column. Missing from the full claim: the order in the tables of the project, for which latitude and longitude are exchanged (`C90_coordinates_false`).

### C91 Agents that stay close to home prefer destinations near home — partial

*How:* The score is a product of four factors (`endPointScore_iff`); the factor for the distance is compared with the distance between the home and the destination. Witness: an agent that has walked to a place 100 km from home.

* `Flee.C91_home_false` (Preferences): C91 is false: away from home an agent prefers what is near to where it is.
* `Flee.C91_home_partial` (Preferences): C91 for an agent at its home. Missing from the full claim: agents elsewhere, whose distances are taken from where they are (`C91_home_false`).

### C92 Population weighs destinations — partial

*How:* The factor for the population is isolated by switching the rule off. Witness: a town with two inhabitants.

* `Flee.C92_population_false` (Preferences): C92 is false: a population above 1 counts as 1.
* `Flee.C92_population_partial` (Preferences): C92 for populations of at most 1. Missing from the full claim: larger populations, which count as 1 (`C92_population_false`, `C92_no_effect`).
* `Flee.C92_no_effect` (Preferences): C92, what the code does for all other populations: the rule has no effect, whatever the power.

### C93 Children avoid hazards and teenage boys take risks — partial

*How:* Case analysis of the nested conditions against a table of what each group perceives. Witness: a man of 40 years.

* `Flee.C93_age_false` (Preferences): C93 is false: a man of 40 years is treated like a boy.
* `Flee.C93_age_partial` (Preferences): C93 except for men from 19 on when both rules are on, and for boys when the rule for children is off. Missing from the full claim: these (`C93_age_false`, `C93_rules_off`).
* `Flee.C93_rules_off` (Preferences): C93, what the code does when the rule for children is off: nothing, even for boys that take risks.

### C94 Ethnicity matching works — partial

*How:* The branch for ethnicities raises whatever the attribute is. Witness: one town and one agent.

* `Flee.C94_ethnicity_false` (Preferences): C94 is false: matching raises.
* `Flee.C94_ethnicity_partial` (Preferences): C94 for destinations of a kind for which ethnicities are not matched: the rules for the other kinds have no effect. Missing from the full claim: the kinds for which they are matched, where every choice raises (`C94_ethnicity_false`, `C94_always_raises`).
* `Flee.C94_always_raises` (Preferences): C94, what the code does for the kinds for which ethnicities are matched.

### C95 The score uses the mean of a forecast — partial

*How:* The factor of the forecast is isolated by switching the forecaster off and computed by the sum over the forecast days (C82).

* `Flee.C95_mean_partial` (Preferences): C95 with the mean multiplied once more with the sum of the forecast. Missing from the full claim: it holds without this factor only where the sum is 0 or 1 (`C95_mean_false`).
* `Flee.C95_mean_false` (Preferences): C95 is false: a forecast with sum 1/2 over two days gives the factor 1/8, not 1/4.

### C96 A forecast without floods leaves scores unchanged — partial

*How:* As C95, with all levels at most 0.

* `Flee.C96_no_flood_false` (Preferences): C96 is false.
* `Flee.C96_no_flood_partial` (Preferences): C96 while no forecast is in use. Missing from the full claim: a forecast in use (`C96_no_flood_false`, `C96_score_zero`).
* `Flee.C96_score_zero` (Preferences): C96, what the code does with a forecast in use: where no flood is expected the score is 0, so that a destination is chosen for being under water soon.

### C97 Awareness level -1 means no weighting — partial

*How:* What the search finds (C20's lemma for all levels) with a step count that is never below a negative level.

* `Flee.C97_no_weighting_false` (Weights): C97 is false: two towns at different distances have different weights.
* `Flee.C97_no_weighting_partial` (Weights): C97, what the code does: with a negative awareness level the candidates are the open links to locations that are not markers, weighted by score, distance and capacity as at every other level. Missing from the full claim: equal weights (`C97_no_weighting_false`).

### C98 Weight power 0 is a random walk — proved

*How:* All weights are 1, so pruning keeps everything and the shares (C17) are 1/n.

* `Flee.C98_random_walk` (Weights): C98. With weight power 0 an agent walks at random: each of the `n` routes that it sees is taken for a draw in its `n`-th part of the interval from 0 to 1, whatever the scores, distances and the pruning threshold.

### C99 Distance power 0 makes distances irrelevant — proved

*How:* Induction over the recursion of the search, with different distances so far on both sides.

* `Flee.C99_distance_free` (Weights): C99. With distance power 0 the lengths of links do not matter: with any other lengths, the same draw makes every agent choose the same route, and the candidates have the same weights.

### C100 Weight softening adds a constant to all weights — partial

*How:* The weight of each candidate (C20) is split into the part without softening and the rest. Witness: two towns.

* `Flee.C100_constant_false` (Weights): C100 is false: for a town at 10 km (20 km with softening) the constant 1 adds 1/20.
* `Flee.C100_constant_partial` (Weights): C100, what the code does: the constant is divided by the distance and throttled by the capacity before it is added. Missing from the full claim: the constant itself (`C100_constant_false`).

### C101 Softening adds its kilometres to every link — partial

*How:* The network with longer links is compared with the original one; for routes of one link by computation. Witness: a row of three towns.

* `Flee.C101_every_link_false` (Weights): C101 is false: on a route of two links of 10 km, 10 km are added and not 20.
* `Flee.C101_every_link_partial` (Weights): C101 for awareness levels of at most 1 where no neighbour is a marker, where all routes have one link. Missing from the full claim: routes of more links, for which the kilometres are added once (`C101_every_link_false`, `C101_once`).
* `Flee.C101_once` (Weights): C101, what the code does for all levels: the kilometres are added once to the length of the whole route.

### C102 Fixed routes are weighed with the scores of the day — partial

*How:* Induction over the locations in the order in which they are updated: scores of later locations are those from before. Witness: a conflict that begins on this day.

* `Flee.C102_scores_of_the_day_partial` (FixedRoutes): C102, what the code does: a fixed route to a location that was added before (or is) the location where it starts is weighed with the score of the day, all others with the score from before this time step. Missing from the full claim: the scores of the day for the latter (`C102_scores_of_the_day_false`).
* `Flee.C102_scores_of_the_day_false` (FixedRoutes): C102 is false: on the day on which a conflict begins at B (score 1/4), the route from A to B is weighed with the score 1.

### C103 Fixed routes weigh the same as searched routes — partial

*How:* C102 and the product that an agent computes. Witness: a camp with score 2.

* `Flee.C103_weight_false` (FixedRoutes): C103 is false: the score 2 of a camp counts twice.
* `Flee.C103_weight_partial` (FixedRoutes): C103, what the code does: the score of the destination for the agent is multiplied with the weight of the fixed route, in which the score of the location is already contained, and the capacity does not count. Missing from the full claim: weights equal to those without fixed routes (`C103_weight_false`).

### C104 Full locations have no attraction — partial

*How:* The weight of each candidate (C20) contains the throttle, which is 0 (C15). With fixed routes the weight does not depend on the number of agents. Witness: a full camp.

* `Flee.C104_full_false` (FixedRoutes): C104 is false with fixed routes.
* `Flee.C104_full_partial` (FixedRoutes): C104 without fixed routes. Missing from the full claim: fixed routes, where the capacity does not count (`C104_full_false`, `C104_capacity_ignored`).
* `Flee.C104_capacity_ignored` (FixedRoutes): C104, what the code does with fixed routes: the weight for an agent does not depend on capacities and occupancy.

### C105 Fixed routes lead to the same destinations as searched routes — partial

*How:* Without markers the walks explored by the generation and by the search are the same. Witness: a marker between two towns.

* `Flee.C105_destinations_false` (FixedRoutes): C105 is false: a marker uses up a step when fixed routes are generated.
* `Flee.C105_destinations_partial` (FixedRoutes): C105 in networks without markers. Missing from the full claim: networks with markers (`C105_destinations_false`).

### C106 Printed camp counts are the numbers of agents in the camps — proved

*How:* The counting invariant (C01) along the whole program: every step is an operation of the model or spawning, and the list of camps is fixed.

* `Flee.C106_printed_counts` (Program): C106: in every row that the program prints, the counts of the camps are the numbers of agents there; the camps are those that were camps when the program started, each looked up by its name.

### C107 The printed number of refugees in camps counts all camps — partial

*How:* Sum over camps of the counting invariant, if flags of camps are as at the start. Witness: a town that becomes a camp on day 1.

* `Flee.C107_false` (Program): The program fixes the camps before the first day: in the sample a town becomes a camp on day 1, and the agents in it are not counted.
* `Flee.C107_partial` (Program): It is, as long as the same locations are camps as at the start, and names are distinct.

### C108 The printed total is the start and what was spawned — proved

*How:* Induction over days; closures and evolution keep the number of agents, spawning adds what it returns.

* `Flee.C108_printed_total` (Program): C108: the number printed as "total refugees (simulation)" is the number of agents before the first day and the numbers spawned on the days so far, when rates and populations are not negative.

### C109 Printed rows balance — partial

*How:* Induction over days with the balance of one day of spawning (C44). Witness: data that fall from 2 to 0.

* `Flee.C109_false` (Program): When the data fall to 0 the row shows zeros, although there are agents and there is a debt.
* `Flee.C109_partial` (Program): Rows with a positive refugee count balance.

### C110 Printed error 0 means agreement with the data — partial

*How:* A sum of numbers that are not negative. Witness: data that fall to 0.

* `Flee.C110_false` (Program): When the refugee count is 0 the printed error is 0 whatever the camps hold.
* `Flee.C110_partial` (Program): With a positive refugee count the error is the sum of the differences, as a share of the refugee count.

### C111 One row for each day — proved

*How:* Induction over the loop.

* `Flee.C111_one_row_per_day` (Program): C111: a run that does not fail prints one row for each day, in order, and advances the clock by one each day.

### C112 Agents come from places in conflict — partial

*How:* Invariant: weights are positive only for places in conflict; it holds after evolution and after every update of conflict zones without changes of types. Witness: a conflict zone that becomes a town.

* `Flee.C112_false` (Program): A change of the type of a location does not change the weights from which places of origin are drawn before the next evolution, so that agents still come from a place where the conflict is over.
* `Flee.C112_partial` (Program): They do with spawning driven by conflicts, and with spawning from data on days without changes of types.

### C113 Printed data are those of the day — proved

*How:* The columns of the table are never changed.

* `Flee.C113_printed_data` (Program): C113: the counts printed as data are those that the data give for the camps on the day, and their sum is printed as "refugees in camps (UNHCR)" if there are refugees.

### C114 Agents before the first day — proved

*How:* Storing the input adds no agents; each camp is visited once because names are distinct.

* `Flee.C114_agents_at_start` (Program): C114: without a file of agents, the agents before the first day are in the camps, and each camp holds as many as its row announces and, if the program is to insert them, as the data give for day 0; no agents with empty camps.

### C115 The printed refugee count is that of the data — partial

*How:* Induction over days with the daily differences (C49). Witness: day 0 of a table with totals and one camp.

* `Flee.C115_false` (Program): When refugees are summed over the camps, day 0 also counts the column of totals.
* `Flee.C115_partial` (Program): Without summing over the camps the printed number is the total of the data; with it, the sum over the camps and what the first column gives for day 0.

### C116 Empty tables print changes since day 0 — partial

*How:* Invariant: after day 0 the entry of each heading is its count of day 0. Witness: spawning driven by conflicts.

* `Flee.C116_false` (Program): With spawning driven by conflicts nothing writes the counts of day 0, so that they are not taken off.
* `Flee.C116_partial` (Program): They are with spawning from data.

### C117 All processes have the same network — proved

*How:* Relational invariant over all processes: equal worlds up to the parts that each process keeps for itself.

* `Flee.C117_alike` (ParallelStep): C117: whatever calls a parallel program makes and whatever each process draws at random, all processes have the same network, the same list of closures and the same time.

### C118 Parallel scores — partial

*How:* The same invariant with scores; the split of the locations covers each once (C38). Witness: a camp closed in an unknown mode.

* `Flee.C118_mode_false` (ParallelStep): C118 is false of the code: with a `parallel_mode` other than the two that are known, the score of a location is updated on one process only, in the first step.
* `Flee.C118_partial` (ParallelStep): C118 for the two known modes: after a step, every process has for every location the score that the sequential program would give it. Missing from the full claim: other settings of `parallel_mode`, for which it is false (`C118_mode_false`).
* `Flee.C118_agree_partial` (ParallelStep): C118, agreement: in the two known modes all processes have the same scores in all states. Missing from the full claim: as above.

### C119 Numbers of agents count all processes — partial

*How:* Each exchange sets the number to the sum over processes of their own counts, which are right by the counting invariant. Witness: an agent just added.

* `Flee.C119_new_agent_false` (ParallelStep): C119 is false of the code: a new agent is not counted at its location until the end of the next step, so that in that step camps seem to have room that they do not have.
* `Flee.C119_step_partial` (ParallelStep): C119 after a step: on every process the number of agents of a location, of an open link or of a closed link is the number of agents there on all processes together. Missing from the full claim: states after agents have been added, for which it is false (`C119_new_agent_false`).
* `Flee.C119_clear_partial` (ParallelStep): C119 after the agents of some locations have been removed: locations and open links. Missing from the full claim: closed links and other states.

### C120 Total number of agents — partial

*How:* The total is the sum over the places that are counted; links are counted once because no link is in two lists. Witness: a link closed while in use.

* `Flee.C120_closed_false` (ParallelStep): C120 is false of the code: when a link is closed, agents that are still on it are no longer counted.
* `Flee.C120_step_partial` (ParallelStep): C120, what holds after a step: the total is the number of agents, on all processes, at locations and on open links. Missing from the full claim: agents on links that have been closed or removed, see `C120_closed_false`.
* `Flee.C120_agree_partial` (ParallelStep): C120, agreement: all processes know the same total, in all states. Missing from the full claim: as above.
* `Flee.C120_open_partial` (ParallelStep): C120 for runs in which no link is closed or removed and no agent is removed. Missing from the full claim: other runs.

### C121 Camps as sinks in parallel runs — partial

*How:* The check at the end of a step fails exactly for agents at rest in a camp. Witness: a camp with one agent.

* `Flee.C121_sinks_false` (ParallelStep): C121 is false of the code: `random` is not imported, so that the first agent in a camp stops the program.
* `Flee.C121_partial` (ParallelStep): C121, what holds: if a step with `camps_are_sinks` returns, then no agent rests in a camp on any process, and nobody has been deactivated. Missing from the full claim: steps that end with an agent in a camp, which fail (`C121_sinks_false`).

### C122 Agents stay on their process — proved

*How:* Each phase maps the list of agents one to one.

* `Flee.C122_persons` (ParallelStep): C122: a step moves no agent to another process, loses none and makes none; each keeps its home and its attributes and is one day older.

### C123 Parallel populations — partial

*How:* The invariant of C117 with populations. Witness: different locations on two processes.

* `Flee.C123_drawn_false` (ParallelStep): C123 is false of the code: the location of a new agent is drawn on every process on its own, and each process takes the agent from the population of the location that it has drawn.
* `Flee.C123_partial` (ParallelStep): C123 for programs that make new agents at the same location on all processes. Missing from the full claim: locations that differ from process to process, for which it is false (`C123_drawn_false`).

### C124 Spawned agents in parallel runs — partial

*How:* Invariant: the count of each process is the number of all agents with that home. Witness: two processes.

* `Flee.C124_partial` (ParallelStep): C124, what holds: every agent is counted once by every process. Missing from the full claim: more than one process, for which it is false (`C124_false`).
* `Flee.C124_alone_partial` (ParallelStep): C124 on one process.
* `Flee.C124_false` (ParallelStep): C124 is false of the code: two processes count every agent twice.

### C125 Balance of processes — partial

*How:* Invariant: the total n determines the share of each process, as dealt out in turn (C37). Witnesses: cleared locations, a closed link.

* `Flee.C125_cleared_false` (ParallelStep): C125 is false of the code: agents that are removed can all be of one process.
* `Flee.C125_closed_false` (ParallelStep): C125 is false of the code also without removed agents: after a step in which agents on closed links are not counted, agents are dealt out anew from a total that is too small.
* `Flee.C125_partial` (ParallelStep): C125 for runs in which no link is closed or removed and no agent is removed. Missing from the full claim: other runs, for which it is false (`C125_cleared_false` and `C125_closed_false`).

### C126 Weights of major routes — proved

*How:* Induction over the major route: distances add up to the length of the walk; the table is only written with such weights.

* `Flee.C126_weights` (MajorRoutes): C126: every stored route is weighed by the whole walk to its end: either as a regular route, or as a major route, with a quarter of the distance.

### C127 Major routes are two-way — partial

*How:* Induction over the rows and lines; later operations of the reader keep the routes. Witness: a line with a blank cell at the end.

* `Flee.C127_two_way_partial` (MajorRoutes): C127, what holds: when no line of the file of major routes starts or ends with a blank cell, the major routes of the location of each row are those of all lines that start there, and those of all lines that end there, reversed. Missing from the full claim: lines with blank cells at the end (`C127_two_way_false`).
* `Flee.C127_two_way_false` (MajorRoutes): C127 is false: a line that is padded with a blank cell, as a shorter line of a table is, gives no way back.

### C128 Major routes are not recursive — proved

*How:* Invariant of the insertion: entries of regular routes are not overwritten, so hubs are always reached by regular routes.

* `Flee.C128_not_recursive` (MajorRoutes): C128: after a time step each stored route is a walk of at most as many links as agents are aware of, or such a walk followed by one major route of the location where it ends. No route joins two major routes.

### C129 Major routes and closed links — partial

*How:* When the insertion returns, each major route was followed link by link. Witness: a chain with a major route and one closed link.

* `Flee.C129_closed_false` (MajorRoutes): C129 is false: with a closed link on a major route the program stops.
* `Flee.C129_closed_partial` (MajorRoutes): C129, what holds: when a time step with fixed routes returns, all links of each major route are open, unless the end of the major route is known without it. So the program stops as soon as a major route that is needed has a closed link. Missing from the full claim: going on (`C129_closed_false`).

### C130 Major routes are known — partial

*How:* Each major route is followed to its end and stored unless the comparison fails. Witnesses: a chain of five links of 100 km; two ways to the same end.

* `Flee.C130_stored_false` (MajorRoutes): C130 is false: the new route is compared with what the last location before the end knows, which is nearer, so A does not learn of F.
* `Flee.C130_stored_partial` (MajorRoutes): C130, what holds: the end of a major route of the location gets known, if the location before the end of the route knows no route to that end, or only one that weighs less. Missing from the full claim: the comparison with another location (`C130_stored_false`).
* `Flee.C130_hubs_partial` (MajorRoutes): C130 for the major routes of a location `hub` nearby, when names are distinct.
* `Flee.C130_best_false` (MajorRoutes): The best major route is not kept: a later one replaces it.

### C131 A process steps like the sequential program — partial

*How:* Simulation relation between a process and the sequential state: equal up to spawned agents and, unless routes are fixed, routes. Decisions do not read numbers of agents where no capacity counts; induction over agents and over the links an agent completes. Witnesses: a camp for one person and two agents; two roads, one of which leads to a conflict that broke out before the first or the second step.

* `Flee.C131_capacity_false` (Refine): C131 is false of the code, even on one process: the numbers of agents at locations that the decisions of agents are based on are brought up to date between the two halves of a step only. The second agent does not notice that the camp is full.
* `Flee.C131_mode_false` (Refine): C131 is false of the code also without capacities: with a `parallel_mode` that is not known, scores are not updated.
* `Flee.C131_fixed_false` (Refine): C131 is false of the code also without capacities and in the known modes: in the first step with fixed routes, the parallel program has updated scores three times before it generates routes, while the sequential program generates the routes of a location as it updates scores, from the scores that later locations have had before. Even on one process agents choose other roads.
* `Flee.C131_stale_false` (Refine): C131 is false of the code also after the first step, if processes share the work of updating scores: a process regenerates the routes of its own share of the locations, those from other locations stay as they were when they were first needed. An agent that the sequential program would send away from the fighting goes there.
* `Flee.C131_partial` (Refine): C131 where no location has a capacity that counts, in the two known modes, with routes that are not fixed or, in the classic mode, with fixed routes after the first step: each process does what the sequential program would do with the agents of that process. The sequential step returns as well, unless it raises an exception when it computes the weights of the locations for new agents, which a step of the parallel program does not do. Missing from the full claim: locations with a capacity, other modes, and fixed routes in the first step or with scores updated in shares. For all of these it is false (`C131_capacity_false`, `C131_mode_false`, `C131_fixed_false`, `C131_stale_false`).

### C132 One process is the sequential program — partial

*How:* Induction over the calls with the relation of C131.

* `Flee.C132_capacity_false` (Refine): C132 is false of the code: the second agent does not notice that the camp is full.
* `Flee.C132_fixed_false` (Refine): C132 is false of the code also without capacities: in the first step, fixed routes differ (see `C131_fixed_false`).
* `Flee.C132_mode_false` (Refine): C132 is false of the code also without capacities and with routes that are not fixed: with a `parallel_mode` that is not known, scores are not updated after the first step.
* `Flee.C132_partial` (Refine): C132 for programs that step while no location has a capacity that counts, in the two known modes, with routes that are not fixed. Missing from the full claim: locations with a capacity, other modes and fixed routes. For all of these it is false (`C132_capacity_false`, `C132_mode_false`, `C132_fixed_false`).

### C133 New agents in parallel runs — partial

*How:* Case analysis of the call on each process; populations of all other locations are unchanged. Witness: a location with one person.

* `Flee.C133_last_person_false` (ParallelDepart): C133 is false of the code: with `TakeFromPopulation` the parallel program asserts that two people are left, and the sequential program takes the last one too.
* `Flee.C133_partial` (ParallelDepart): C133 in full detail: the parallel program adds an agent just where the location exists and, with `TakeFromPopulation`, at least two people are left there on each process; one of them becomes the agent. Missing from the full claim: the last person, for which it is false (`C133_last_person_false`).

### C134 Parallel agents do not set out for a full camp — partial

*How:* The numbers at locations stay those of the last exchange during the loop (induction over the agents), and these count all processes (C119). Witness: an agent that is added to a camp for one.

* `Flee.C134_new_agents_false` (ParallelDepart): C134 is false of the code: agents that are new in the camp have not been counted yet.
* `Flee.C134_partial` (ParallelDepart): C134 in a step that follows another one: the camp was not full at the end of that step, counting the agents of all processes. The scores, routes and populations may have changed since, `v` is the world with the changes. Missing from the full claim: agents that were added since, for which it is false (`C134_new_agents_false`).

### C135 Days between dates — proved

*How:* The calendar is specified by what follows a date (`Tomorrow`); the number of days of a date (`Date.ordinal`) is shown to go up by one from each date to the next and to be different for different dates.

* `Flee.C135_days_between` (Dates): C135: for all texts of dates, `subtract_dates` gives the number of days that one has to go on from the second date to arrive at the first, negative if the first is earlier; and whatever it accepts are dates.
* `Flee.C135_only_dates` (Dates): C135: texts that `subtract_dates` accepts are dates.
* `Flee.C135_steps` (Dates): C135: `steps_to_date` goes on by the number of steps, and back if it is negative.

### C136 Printed dates — proved

*How:* Inversion of the conversion between days and dates; the rows of a run are numbered (C113).

* `Flee.C136_date` (DataFiles): C136: the text printed as the date of day `t` gives the date `t` days after the start date, and reading it back gives `t`.
* `Flee.C136_printed_dates` (DataFiles): C136: the rows printed by the program carry the dates of consecutive days, the first row that of the start date.
* `Flee.C136_rows` (DataFiles): C136: the program prints as many rows as its third argument says, and if that is not positive, as the file with the period says.

### C137 Lines of data files — partial

*How:* Induction over the lines of the file. Witnesses: a comment above the headings; a line of empty cells at the end.

* `Flee.C137_lines_false` (DataFiles): C137 is false: a comment above the headings makes the program stop, and so does a line of empty cells after the data.
* `Flee.C137_lines_partial` (DataFiles): C137 for files with at least one line whose headings, if any, are in the first line, where no later line of two or more cells begins with an empty one: every line with a date and a count becomes a row, in order, with the days since the start date and the scaled count, and no other line does. Missing from the full claim: headings after the first line, later lines that begin with an empty cell (`C137_lines_false`).

### C138 Scaled-down data — partial

*How:* The readers commute with division of the counts; corrections commute as far as they work. Witness: counts below the factor.

* `Flee.C138_corrections_false` (DataFiles): C138 is false: a correction that works for counts of 5 and 8 makes the program stop with a factor of 10, where the counts are 0.5 and 0.8.
* `Flee.C138_files_partial` (DataFiles): C138 without corrections: for every factor the data are read if and only if they are read without it, and they are then the data with all counts divided. Missing from the full claim: corrections.
* `Flee.C138_corrections_partial` (DataFiles): C138 with corrections: if the program gets through with a factor of at least 1, it gets through without it, and the corrected data differ by the factor. Missing from the full claim: that it gets through with the factor (`C138_corrections_false`).
* `Flee.C138_shown_partial` (DataFiles): C138, what is shown: the count on a day is the value of the unscaled curve divided by the factor, without the fraction. Missing from the full claim: that corrections work with the factor.

### C139 Corrections change only earlier counts — proved

*How:* Induction over the file of corrections; each correction changes rows before that of its day (with C49).

* `Flee.C139_corrections` (DataFiles): C139: the file of corrections keeps the headings and the days of all rows, and it changes a count only in a column that it names, and only before a date that it gives for it.
* `Flee.C139_effect` (DataFiles): C139: a further line, with a date and the name of a column that has a row on that date and a count of at least 1 in the row before, scales the earlier counts of the column by one factor so that the curve goes on without a jump; other columns stay.

### C140 Simulation period — partial

*How:* Induction over the file. Witness: an empty line.

* `Flee.C140_empty_line_false` (DataFiles): C140 is false: an empty line makes the program stop.
* `Flee.C140_period_partial` (DataFiles): C140 for files without empty lines, where the lines for the start date and the length have a second cell and the lengths are numbers; all other lines, such as comments, are ignored. Missing from the full claim: files with empty lines (`C140_empty_line_false`).

### C141 From data file to printed row — proved

*How:* C137 for the file, the layout as a search, C139 for the corrections, C113 and C48 for the printed values, C136 for the date.

* `Flee.C141_file_to_row` (DataFiles): C141: from the files to the printed rows. If a camp has one data file, with increasing dates, and no correction names it, then what is printed as data of the camp follows the curve through the counts of the file; and in a row that carries the date of a line of the file it is the count on that line, divided by the factor and without the fraction.

### C142 Columns of the data directory — proved

*How:* Induction over the layout and over the files of a line; files with other days are the subject of C51.

* `Flee.C142_layout` (DataFiles): C142: every line of the layout with a name and files gives the column of that name, in order, and the counts of several files with the same days are added; comments and shorter lines give nothing.

### C143 Drawn attributes — partial

*How:* The cumulative weights are monotone, so the row picked is the one whose interval contains the random number, and an interval that contains a number is not empty. C143_chance gives the interval of each row, C143_all lists of attributes, C143_header the error for the documented header.

* `Flee.C143_false` (Demographics): A location with the name of the attribute takes the values for weights: in the table of ages, a place called "age" has people of 70 although their weight is 0 everywhere.
* `Flee.C143_partial` (Demographics): It is, for locations that are not called like the attribute. Missing from the full claim: those that are.
* `Flee.C143_chance` (Demographics): The chance of a row is its share of the weights: the row is drawn when the random number, times the sum of the weights, lies between the sum of the weights before the row and the sum with its own.
* `Flee.C143_all` (Demographics): The attributes drawn for an agent have an allowed value for each table.
* `Flee.C143_unknown` (Demographics): An attribute for which there is no table has the value "-1", whatever the location and the random number.
* `Flee.C143_header` (Demographics): A file with the header that the documentation of `read_demographic_csv` gives, where the column of the values is called "Value", stops the program: the values are looked for in a column with the name of the attribute.

### C144 Files of demographic tables — partial

*How:* The name is split at the first dot and at underscores; induction over the files. C144_overwrite shows that tables are lost.

* `Flee.C144_false` (Demographics): Only the part up to the next underscore is taken: a table of age groups is stored as that of an attribute called age.
* `Flee.C144_overwrite` (Demographics): Of files whose names agree up to that underscore only the table read last is kept.
* `Flee.C144_partial` (Demographics): It does, for names without underscores and dots. Missing from the full claim: names with them.
* `Flee.C144_directory` (Demographics): A directory of such files is read as the tables they hold, in the order in which they are listed.

### C145 Attributes of agents in runs — partial

*How:* Invariant of the run: the attributes of each agent are those drawn for its home (agents keep home and attributes when they move), with C143. The random numbers for attributes are arbitrary.

* `Flee.C145_false` (Demographics): The tables are read when the first camp is filled. In a run without camps they are never read, and the agents have no attributes.
* `Flee.C145_partial` (Demographics): It has, in runs with camps. Missing from the full claim: runs without camps. Stronger: this holds of the agents at the start too, and agents stay with the attributes of their home wherever they go.

### C146 Logs do not change the simulation — partial

*How:* The loops with logs are shown to be the loops without logs plus notes, so that a step with logs returns the same state or the same exception, unless writing the log itself raises. C146_states and C146_all compare the states that are reached.

* `Flee.C146_region_false` (Logs): C146 is false of the code: logs of agents by region stop the program, as the name `location` is not defined.
* `Flee.C146_empty_false` (Logs): C146 is false of the code also with logs by location: without agents on the first day, the log of agents stops the program.
* `Flee.C146_partial` (Logs): C146 without a log of agents, or with one by location from a day on which there are agents, or when all agents have been removed: a time step with logs does what the step without logs does, also where that raises an exception. Missing from the full claim: logs by region and a first day without agents, for which it is false (`C146_region_false`, `C146_empty_false`).
* `Flee.C146_states` (Logs): Whatever is logged, the states that a program with logs reaches are states that it reaches without logs.
* `Flee.C146_all` (Logs): Without a log of agents, all states are reached.

### C147 Rows of the log of agents — partial

*How:* The rows of a day are computed by induction over the agents; RowOn compares a row with the agent before and after the day. C147_once is an invariant of the run.

* `Flee.C147_false` (Logs): C147 is false of the code at log level 2, where the rows on the roads that an agent has come along do not have the number of a hop and look like the row on the agent.
* `Flee.C147_partial` (Logs): C147 at log levels 1 and from 3 on. Missing from the full claim: level 2, for which it is false (`C147_false`).
* `Flee.C147_once` (Logs): In the log of a run no two rows without the number of a hop have the same day and the same number of an agent, and all days are before the present one.

### C148 Attributes in the log of agents — partial

*How:* Invariant: all agents have the attributes ks, and so has the header from day 0 on; the rows hold the values in this order.

* `Flee.C148_false` (Logs): C148 is false of the code: the header has the attributes of the first agent, and the rows have the values of the attributes of their agents, so that a gender can be in the column for ages.
* `Flee.C148_partial` (Logs): C148 for runs in which all agents that are added have the same attributes, in the same order. Missing from the full claim: other runs, for which it is false (`C148_false`).

### C149 Places on the way in the log of agents — partial

*How:* The links at whose end the agent comes on its way (`completed`) are compared with those that are stored; the step stores each but perhaps the last.

* `Flee.C149_false` (Logs): C149 is false of the code, which stores the links instead.
* `Flee.C149_partial` (Logs): What the rows with the number of a hop give instead: for each agent the open links to whose end it has come, in order and numbered from 1; of these the last one can be left out. Missing from the full claim: the names of the locations, for which it is false (`C149_false`).

### C150 The log of links — partial

*How:* The numbers in the dictionaries of the links grow by the entries of the day. Closed links are copies that share their dictionary (Lnk.dict); the invariant Dicts says that no two links of the network share one, so that the numbers are those of the link, also after closing and reopening. C150_sums is an invariant of the run.

* `Flee.C150_closed_false` (Logs): C150 is false of the code: closed links are left out.
* `Flee.C150_attribute_false` (Logs): C150 is false of the code also if no link is closed: agents without the attribute are not in the numbers for its values.
* `Flee.C150_partial` (Logs): What the log of links has: the rows of a day follow the rows of the days before (on day 0 the log is begun anew), location by location for its open links. For each of them there is the row with the number of agents who have entered it so far, and from log level 2 on one row for each value of an attribute that agents on the link have had, with the number of times that agents with this value have entered the link; together these are the agents with the attribute. Missing from the full claim: closed links and agents without the attribute, for which it is false (`C150_closed_false`, `C150_attribute_false`).
* `Flee.C150_sums` (Logs): If all agents that are added have exactly one value of an attribute, the numbers for its values add up to the number of agents who have entered the link.

### C151 Arrivals in camps and lengths of journeys — partial

*How:* The journeys noted on a day are those of the ways of the agents (`journeysTo`), up to order; C151_newly bounds the arrivals from below, C151_waiting_false is about the lengths.

* `Flee.C151_passing_false` (Logs): C151 is false of the code: an agent who passes a camp on the way is counted as an arrival.
* `Flee.C151_back_false` (Logs): C151 is false of the code also if agents stay where they arrive: an agent whom a closed link sends back to a camp is not counted.
* `Flee.C151_partial` (Logs): What is added: the number of times that agents come to the end of an open link to a camp, and the mean over these of the number of days that the agents have been in the simulation (0 if there are none). Missing from the full claim: agents who pass a camp are counted, and agents sent back to a camp are not (`C151_passing_false`, `C151_back_false`).
* `Flee.C151_newly` (Logs): If nobody is on a closed link, at least the agents who are newly in a camp are counted.
* `Flee.C151_waiting_false` (Logs): The lengths of journeys are not counted from the departure: for agents who leave on the day of their arrival they can be positive.

### C152 New agents in the parallel program — partial

*How:* The share of each process in the agents counted (ownShare) adds up to their number. Processes count alike by a relational invariant: equal networks and totals, and with spawning driven by locations also equal populations. Witness: two processes that draw 1 and 3 from a Poisson distribution.

* `Flee.C152_false` (ParProgram): C152 is false of the code: the number of new agents of a Poisson distribution is drawn on every process anew, so that the first process counts one agent and the second three, and together they create two.
* `Flee.C152_partial` (ParProgram): C152 without Poisson distributions: every agent that is counted exists on exactly one process. If the numbers come from the data the number of new agents is what the program returns. Missing from the full claim: numbers drawn from a Poisson distribution, for which it is false (`C152_false`).

### C153 Printed numbers of agents in camps in the parallel program — proved

*How:* The counts that are exchanged at the end of the time step (C119), along the whole program; the list of camps is that of the state before the first day.

* `Flee.C153_printed_counts` (ParProgram): C153: on every process the counts of the camps are numbers of agents on all processes, for the camps of the state before the first day, in their order; a name stands for the last location with it. Their sum is the number of refugees in camps.

### C154 Printed total in the parallel program — partial

*How:* The total of the time step (C120), along the whole program. Witness: a border closed while the agents of day 0 are on the road.

* `Flee.C154_false` (ParProgram): C154 is false of the code: agents that are on a road when it is closed are not counted in the total. Here 3 are printed, and there are 6.
* `Flee.C154_partial` (ParProgram): C154 for agents at locations and on open roads: the total is their number. If there are no others it is the number of all agents. Missing from the full claim: agents on roads that have been closed, for which it is false (`C154_false`).

### C155 One row on all processes — proved

*How:* A row is a function of the data, camps, sums and numbers that all processes have in common.

* `Flee.C155_same_rows` (ParProgram): C155: all processes compute the same row, though the program prints the one of the first process only.

### C156 One row for each day in the parallel program — proved

*How:* Rows come from processes in order, and only the first prints.

* `Flee.C156_one_row_per_day` (ParProgram): C156: with at least one process, a run that does not fail prints one row for each day, in order; every process computes one.

### C157 The parallel program runs whenever the sequential one does — proved

*How:* By cases of the start of the program. C157_fails shows that it fails for all inputs; C157_false gives an input on which the sequential program runs.

* `Flee.C157_fails` (ParProgram): With the log level for numbers of IDPs the parallel program fails on every number of processes and whatever its input is: the heading is appended to a variable that does not exist yet.
* `Flee.C157_false` (ParProgram): C157 is false of the code.

### C158 The parallel program on one process prints what the sequential program prints — partial

*How:* Simulation relation between the two programs: same agents, worlds, weights, data and random numbers (uses C140 for the time step). Witnesses: the border of C154; a conflict zone in a row of the schedule for closures of camps.

* `Flee.C158_false` (ParProgram): C158 is false of the code: as in C154, the parallel program leaves out agents on roads that have been closed.
* `Flee.C158_weights_false` (ParProgram): C158 is also false of the code for the number of agents in camps: closing a camp ends the conflict there, and the sequential time step brings the weights of the conflict zones up to date, whereas the parallel one does not. On the next day new agents still come from there.
* `Flee.C158_partial` (ParProgram): C158 without capacities, closures of camps, fixed routes and unknown settings of `parallel_mode`: on one process the two programs have the same agents and the same world on every day and print the same rows, but for the total; and the same total too, if there are no agents on closed roads. Missing from the full claim: the settings and closures named, for which it is false (`C158_false`, `C158_weights_false`; for capacities and modes see C118 and C119, for fixed routes C141).

### C159 Days of generated conflict zones — partial

*How:* Texts of dates are read by splitting, digits and names of months; the specification gives them by a grammar (EventDate, StartDate) and counts days by the calendar (DaysBetween). C159_nearest says for all inputs which event a row comes from: one of those nearest to the start, in either direction. Witnesses: one event ten days before the start; C159_old, an event of 1999.

* `Flee.C159_nearest` (Acled): A row comes from a fatal event of its region, has the distance from the start to that event in days, in whichever direction, and no fatal event of the region is nearer to the start. Years 50 to 99 are left out.
* `Flee.C159_partial` (Acled): Part of C159: the day in a row is the number of days from the start to a fatal event of that region. Missing from the full claim: events before the start, and years written as 50 to 99.
* `Flee.C159_false` (Acled): The claim of C159 is false: an event ten days before the start makes a conflict zone on day 10.
* `Flee.C159_old` (Acled): An event of the year 1999, written with two digits, is placed 697978 days from the start, as if it were of the year 99.
* `Flee.C159_no_year` (Acled): With an event whose date ends where the year should be, no rows are written.

### C160 One conflict zone for each region with a fatal event — proved

*How:* Sorting is an arbitrary permutation ordered by day; dropping of duplicates keeps one row of each name, so that the later filter changes nothing (filterTable_inv).

* `Flee.C160_one_row` (Acled): C160: there is exactly one row for each region with a fatal event, and none for other regions.

### C161 The filter earliest — partial

*How:* From C159_nearest. Witness: events ten days before and three days after the start.

* `Flee.C161_partial` (Acled): Part of C161: a row comes from the first fatal event of its region. Missing from the full claim: events before the start, and years written as 50 to 99.
* `Flee.C161_false` (Acled): The claim of C161 is false: of two events, ten days before the start and three days after it, the second is taken.

### C162 The filter fatalities — partial

*How:* From C159_nearest. C162_no_effect says for all inputs that both filters give the same file. Witness: the events of C161.

* `Flee.C162_no_effect` (Acled): Whether the filter is "fatalities" or "earliest" makes no difference, for all inputs.
* `Flee.C162_partial` (Acled): Part of C162: a row comes from an event with most fatalities. Missing from the full claim: regions in which an event with fewer fatalities is as near to the start or nearer, and years written as 50 to 99.
* `Flee.C162_false` (Acled): The claim of C162 is false: of two events with 5 and 1 fatalities the second is taken, which is nearer to the start.

### C163 Levels of regions for conflict zones — partial

*How:* C163_exit says that the program stops for all inputs with another level.

* `Flee.C163_exit` (Acled): With any level but admin1 the program stops, for all inputs.
* `Flee.C163_partial` (Acled): Part of C163: the program works for the level admin1. Missing from the full claim: the levels admin2, admin3 and location, and years written as 50 to 99.
* `Flee.C163_false` (Acled): The claim of C163 is false: with level location the program stops.

### C164 Populations of generated conflict zones — proved

*How:* Induction over the rows.

* `Flee.C164_population` (Acled): C164: the population in a row is that of the first line of the table for the region.
* `Flee.C164_missing` (Acled): C164: the program succeeds if the table has all regions with fatal events, and otherwise fails with IndexError.

### C165 Conflict zones with all accepted versions of pandas — partial

*How:* The flag `append` of the arguments says whether the installed pandas has DataFrame.append. C165_stops says that without it the program stops on all lists with a fatal event.

* `Flee.C165_stops` (Acled): With a pandas that has no `DataFrame.append` the program stops whenever there is a fatal event, for all inputs.
* `Flee.C165_partial` (Acled): Part of C165: without fatal events the versions do the same. Missing from the full claim: lists with fatal events.
* `Flee.C165_false` (Acled): The claim of C165 is false: with a new pandas the program stops.

### C166 Averaged error of the plotting program — partial

*How:* The output is a table of columns named as run.py prints them; names of camps are found by searching for ' sim' in all names and splitting at blanks, as the program does. C166_run applies the theorem to all runs of the simulation program. Witness: a camp whose second word begins with 'sim'.

* `Flee.C166_false` (Validation): A camp "al simsim" is counted three times: its columns of data and of errors also contain " sim".
* `Flee.C166_partial` (Validation): It is, if no word but the first of a name begins with "sim" and no name contains "numAgents". Missing from the full claim: camps with other names.
* `Flee.C166_run` (Validation): The output of a run of at least one day can be read like this.

### C167 Rescaled averaged error of the plotting program — partial

*How:* The bound holds per day and is averaged. C167_shares and C167_scale hold for all outputs: the error is 0 if the shares agree, and multiplying the simulation changes nothing. Witness: two camps whose rescaled numbers are not whole.

* `Flee.C167_false` (Validation): Rescaled numbers are stored as whole numbers.
* `Flee.C167_partial` (Validation): It differs from it by at most the mean of the number of camps, per refugee. Missing from the full claim: equality.
* `Flee.C167_shares` (Validation): It is 0 if on each day the camps have the same shares as in the data.
* `Flee.C167_scale` (Validation): It does not change if on each day all numbers of the simulation are multiplied by the same factor.

### C168 Rescaled error in the comparison of models — partial

*How:* C168_same says for every table that the two numbers written are equal.

* `Flee.C168_false` (Validation): The table repeats the error without rescaling.
* `Flee.C168_same` (Validation): So it is for every table, whatever is in it.
* `Flee.C168_partial` (Validation): It is the rescaled error if on each day there are as many people in camps as in the data. Missing from the full claim: other days.

### C169 Two errors of a day — partial

*How:* C169_none says what is printed and what is averaged on days without refugees in the data. Witness: two refugees in the data, one of them in camps.

* `Flee.C169_false` (Validation): The simulation divides by all refugees in the data, the programs by those in camps.
* `Flee.C169_partial` (Validation): The two errors differ by the numbers that they are divided by, if there are refugees in the data; so they agree if all of these are in camps. Missing from the full claim: days with other refugees in the data.
* `Flee.C169_none` (Validation): On a day without refugees in the data the simulation prints 0, and the programs count everybody in camps.

### C170 A figure for every camp — partial

*How:* C170_space and C170_idps say for all outputs that the program stops with a name of two words, or with the column of internally displaced people. `C170_report` and `C170_silent` are about the whole program, figures and printed errors.

* `Flee.C170_false` (Validation): The program takes the first word of a column for the name of a camp.
* `Flee.C170_partial` (Validation): It is if names are single words other than "Date" and "Total", and internally displaced people are not counted; each figure is made for a camp. Missing from the full claim: other names, and output with the number of internally displaced people.
* `Flee.C170_space` (Validation): With a camp whose name has a space after a first word that is no camp, no figure is ever made.
* `Flee.C170_idps` (Validation): From output with the number of internally displaced people no figure is ever made, unless a camp is called "total".
* `Flee.C170_report` (Validation): The whole program then draws these figures and prints the two errors: the first is the mean over the days of the differences per refugee, the second is off by at most the mean of the number of camps, per refugee.
* `Flee.C170_silent` (Validation): With such a name the program stops before it prints an error.

### C171 Aggregated error of camps — partial

*How:* Induction over the camps; the weighted mean is also given as an equation. Witness: a camp without observations.

* `Flee.C171_false` (Validation): There is no number if the data have nobody in any camp.
* `Flee.C171_partial` (Validation): It does if there is somebody in some camp; it is the weighted mean. Missing from the full claim: the case of nobody.

### C172 Accuracy ratio with a zero in the data — partial

*How:* C172_never says for all inputs that a 0 gives no number. The logarithm is an arbitrary function.

* `Flee.C172_false` (Validation): The result is then not a number.
* `Flee.C172_partial` (Validation): For positive values it is the mean of the logarithms, without signs, rounded to four digits. Missing from the full claim: the case of a 0 in the actual values.
* `Flee.C172_never` (Validation): A 0 in the actual values never gives a number.

### C173 Simple models to compare with — partial

*How:* The sloped lines are given exactly for positive data: 7 and 30 times too high.

* `Flee.C173_false` (Validation): The sloped lines are too steep.
* `Flee.C173_partial` (Validation): The flat lines and those with a constant ratio do. The sloped lines are seven times and thirty times too high. Missing from the full claim: the sloped lines, for which it is false.

### C174 Validation results of short simulations — partial

*How:* It works exactly from 31 days on.

* `Flee.C174_false` (Validation): They cannot for a simulation of thirty days.
* `Flee.C174_partial` (Validation): They can exactly if there are more than thirty days, and the lines have one value for each day. Missing from the full claim: shorter simulations.

### C175 No instance waits for ever — partial

*How:* The instances are processes that take steps in any order, with what each is doing in between (opening, writing, waiting, reading). The proof takes an instance of least day that has not finished. C175_ends shows by a well-founded order on what is still to do that there is no infinite sequence of steps, apart from the sleeping while waiting. Witness: a location for which the other model sends nothing.

* `Flee.C175_waits_false` (Protocol): C175 is false of the code: if an instance ends by an exception, here because the other model sends nothing for one of its locations, its partner waits for the file of the next day for ever.
* `Flee.C175_no_deadlock_partial` (Protocol): C175 as far as it holds: if no instance has failed, nothing more can happen only when all instances have finished, whatever files were in the directory and whatever the instances compute. Missing from the full claim: instances that wait for an instance that failed (`C175_waits_false`).
* `Flee.C175_ends` (Protocol): C175, steps: there is no infinite sequence of steps.

### C176 Coupled instances stay close — partial

*How:* Invariant: a file exists exactly when its writer has opened it. The bounds are attained (C176_two_days_false).

* `Flee.C176_two_days_false` (Protocol): C176 is false of the code: one instance can be two days ahead of another instance of the same model.
* `Flee.C176_days_apart_partial` (Protocol): C176 as far as it holds: instances of different models are at most one day apart, instances of the same model at most two, if there were no files in the directory. Missing from the full claim: two days for instances of one model (`C176_two_days_false`).

### C177 Coupling does not depend on timing — partial

*How:* The specification `InStep` has no files and no order of steps. Invariant: what is in each file at each stage. Witness: a file read when three of its characters are written.

* `Flee.C177_half_file_false` (Protocol): C177 is false of the code: the reader waits only until the file exists, not until it is complete; of the text "A,12" it may see "A,1" and take in one agent instead of twelve.
* `Flee.C177_in_step_partial` (Protocol): C177 as far as it holds: if no file is read while it is being written and there were no files in the directory, the state of an instance at the beginning of a day is the one it has if all instances exchange whole messages of the same day. Missing from the full claim: files that are read too early (`C177_half_file_false`).
* `Flee.C177_any_speed_partial` (Protocol): C177, the same for two executions: instances on the same day have the same state. Missing from the full claim: files that are read too early (`C177_half_file_false`).
* `Flee.C177_one_pair_partial` (Protocol): C177 for one instance of each model: on the same day, their states are those of two simulations that exchange agents every day as in C61. Missing from the full claim: files that are read too early (`C177_half_file_false`).

### C178 Files of an earlier run — partial

*How:* As C177, with files in the directory at the start. Witness: a file of the first day.

* `Flee.C178_old_file_false` (Protocol): C178 is false of the code: an instance that starts first finds the old file, does not wait, and takes in five agents instead of one.
* `Flee.C178_other_files_partial` (Protocol): C178 as far as it holds: files of later days or of further instances have no influence. Missing from the full claim: files of the instances and days of this run (`C178_old_file_false`).

### C179 More rain does not shorten a link — proved

*How:* The factor is 1, 2 or 10000 and grows with the precipitation, whatever the thresholds.

* `Flee.C179_more_rain` (Weather): C179: on a day with more rain a link that is no river crossing is not shorter; it is never shorter than without rain, and never longer than ten thousand times that.

### C180 Flooded links — partial

*How:* Two witnesses; the exact condition is given. It needs that X1 is at most X2 (C181).

* `Flee.C180_equal_false` (Weather): C180 is false of the code: precipitation equal to X2 does not flood a link.
* `Flee.C180_fifteen_false` (Weather): C180 is false in another way: precipitation above X2, but not above 15, does not flood a link.
* `Flee.C180_flooded_partial` (Weather): C180 as far as it holds: a link is flooded exactly if the precipitation is greater than X2 and greater than 15. Missing from the full claim: precipitation equal to X2 (`C180_equal_false`) or at most 15 (`C180_fifteen_false`).

### C181 Thresholds are percentiles — proved

*How:* The linear interpolation of pandas on the sorted values, for every list that is not empty. Ties between equally distant points are broken by the first one in the model.

* `Flee.C181_percentiles` (Weather): C181: the lower threshold is at most the upper one, and they divide the recorded values for the place as the 15th and 75th percentiles: of `n` values, more than 15 (75) hundredths of `n - 1` are at most the threshold, and the rest of them at least.
* `Flee.C181_exist` (Weather): Thresholds exist for every table that is not empty.

### C182 Place of the thresholds — partial

*How:* The order of the two searches is in the model. Witness: two points.

* `Flee.C182_latitude_first_false` (Weather): C182 is false of the code: the nearest latitude is found first, then the nearest longitude on it, which may be far away.
* `Flee.C182_place_partial` (Weather): C182 as far as it holds: all records used are those of one point; its latitude is nearest to the midpoint, and its longitude is nearest among the points of this latitude. In particular the records of the midpoint are used if there are any. Missing from the full claim: points of other latitudes (`C182_latitude_first_false`).

### C183 Weather in both directions — partial

*How:* The midpoint is an arbitrary function that does not depend on the order of its arguments.

* `Flee.C183_crossing_false` (Weather): C183 is false of the code: the link in the other direction does not know that it crosses a river.
* `Flee.C183_directions_partial` (Weather): C183 for links that do not cross a river. Missing from the full claim: river crossings (`C183_crossing_false`).

### C184 River crossings — proved

*How:* The distance on the sphere is an arbitrary function.

* `Flee.C184_river` (Weather): C184: the length of a river crossing depends on the level of the river on that day at the nearest place of the table: below 8000 it stays, otherwise the link is ten thousand times as long.

### C185 Multiplier of the precipitation program — partial

*How:* The two functions agree exactly up to X2.

* `Flee.C185_multiplier_false` (Weather): C185 is false of the code: above the upper threshold one program has 1000 and the other 2 or 10000.
* `Flee.C185_multiplier_partial` (Weather): C185 as far as it holds: the two agree exactly up to the upper threshold. Missing from the full claim: more rain (`C185_multiplier_false`).

### C186 Months between two dates — proved

*How:* Membership and strict order by case analysis on the first and last year.

* `Flee.C186_months` (Weather): C186: the list of months between two dates contains exactly the months from the one to the other, each once, in order.

### C187 Ghost locations — partial

*How:* Both loops are folds that couple a name at most once; the set-up is characterised by the names that send and take in. Witness: two locations named A.

* `Flee.C187_names_false` (Multiscale): C187 is false of the code: of two locations with the same name the one without routes is found, and the other one is coupled.
* `Flee.C187_ghosts_partial` (Multiscale): C187, except for where a location coupled for sending only is. Missing from the full claim: locations with the same name (`C187_names_false`).

### C188 Conflict locations of the micro model — proved

*How:* As C187.

* `Flee.C188_conflicts` (Multiscale): C188: with a file of conflicts, the set-up of the micro model works exactly if all given names are locations; then the locations that take agents in are the given ones and those with a column in the file, and only the given ones send agents.

### C189 Coupled models fit together — partial

*How:* From C187 and C188; a missing name makes the exchange of C61 fail.

* `Flee.C189_setup_partial` (Multiscale): C189, what holds: the micro model sends what the macro model takes in; the macro model sends what the micro model takes in exactly if, apart from the given names, the conflict locations of the macro model without routes are the conflict locations of the micro model. Missing from the full claim: other files of conflicts (`C189_setup_false`).
* `Flee.C189_missing` (Multiscale): What happens to a name that is taken in but not sent: the exchange does not return.
* `Flee.C189_setup_false` (Multiscale): C189 is false of the code: a conflict location of both models that has routes in the macro model is not sent, but the micro model waits for its number.

### C190 Log of the numbers exchanged — partial

*How:* The numbers in the log are those of C60; the text of the log is read back with the functions used for messages. Witness: the log of a second run.

* `Flee.C190_append_false` (Multiscale): C190 is false of the code: a second run repeats the names in the middle of the file.
* `Flee.C190_lines_partial` (Multiscale): C190 for a new file: the first line has the names under which agents are sent, each line after it the numbers of a day. Missing from the full claim: files with the log of an earlier run (`C190_append_false`).
* `Flee.C190_sent` (Multiscale): C190: the number logged on a day in the column of a name is the number that the other model reads for it.

### C191 Results of several instances — partial

*How:* The mean is specified by the rows of each day. The tables have the same columns in the model.

* `Flee.C191_mean_false` (Multiscale): C191 is false of the code: of the tables of two instances the second is written.
* `Flee.C191_last` (Multiscale): C191, what is written: the table of the last instance; without instances there is an exception.
* `Flee.C191_same_partial` (Multiscale): C191 if all instances have the same table, with one row for each day. Missing from the full claim: different tables (`C191_mean_false`).

### C192 Reader of the micro model — partial

*How:* Rows of the documented layout fail because of the country; rows of the older layout are stored as the ordinary reader stores them after rearrangement, by equality of the results of every step.

* `Flee.C192_documented` (Multiscale): No geography in the documented layout (name, region, country, latitude, longitude, type, date, population) can be stored by the reader of the micro model: it takes the country for a number.
* `Flee.C192_layout_false` (Multiscale): C192 is false of the code: the ordinary reader stores a town and a camp, the reader of the micro model raises an exception.
* `Flee.C192_older_partial` (Multiscale): C192 for the older layout: the reader of the micro model stores a row of the older layout as the ordinary reader stores the same row in the documented layout, if all countries are the same, and links of five columns as the ordinary reader stores the first four. Missing from the full claim: the documented layout (`C192_documented`, `C192_layout_false`), other countries, further attributes and major routes.

### C193 Empty lines in files of coupled models — partial

*How:* Induction on the lines.

* `Flee.C193_empty_false` (Multiscale): C193 is false of the code: an empty line raises an exception.
* `Flee.C193_empty_line_error` (Multiscale): C193, files with empty lines: neither reader accepts a file with one.
* `Flee.C193_lines_partial` (Multiscale): C193 for files without empty lines. Missing from the full claim: empty lines (`C193_empty_false`).

### C194 Names are only labels — partial

*How:* Every operation commutes with the renaming (Lemmas/Change, ChangeOps), so that the results of all runs do, errors included. Witness: a location with the name of a road.

* `Flee.C194_labels_false` (Compare): C194 is false of the code: a road has a name too, made from the names of its ends, and a location can have that name. Taking agents out of the locations on a list then takes them from the road.
* `Flee.C194_labels_partial` (Compare): C194 for runs in which agents are not taken out of the locations on a list. Missing from the full claim: `clearLocationsFromAgents`, for which it is false (`C194_labels_false`).

### C195 Unit of length — proved

*How:* As C194: lengths go with the factor, weights of routes with a power of it; choices depend on quotients of weights only. That there are no negative weights is an invariant.

* `Flee.C195_unit` (Compare): C195: in another unit of length (kilometres for miles, say) the run is the same, with all lengths in that unit.

### C196 Attributes that no rule reads — proved

*How:* As C194. Matching the ethnicity of agents is not among the attributes that matter: the code raises NameError there, because moving.py does not import `spawning`.

* `Flee.C196_attributes` (Compare): C196: what attributes agents have does not matter, apart from those that a rule that is on reads.

### C197 Agents do not notice each other where there is room for all — proved

*How:* An invariant of computations: what an agent does depends on the random numbers it takes and on the world without numbers of agents only (Lemmas/Alone), and scores and fixed routes depend on neither (Lemmas/AloneScore). So the random numbers of the agents can be put one after the other.

* `Flee.C197_alone` (Alone): C197: without capacities that count, some agents of a simulation can become others in a number of days if and only if each of them, simulated on its own, can become its counterpart.
* `Flee.C197_groups` (Alone): Two groups of agents can be simulated apart.
* `Flee.C197_order` (Alone): The order in which agents are simulated does not matter: agents in another order can become the same agents in that order.

### C198 Several processes can compute what one process can compute, and nothing else — proved

*How:* By C131 each process does in a day what the sequential program does with its agents; the worlds of the processes differ in numbers of agents only, and by C197 agents do not notice these, so that the random numbers of the processes can be put one after the other (Lemmas/AlonePar). The other way round, random numbers that make the sequential program do something are dealt out to the processes, and a step of the parallel program returns if the sequential program does (Lemmas/ParReturn).

* `Flee.C198_parallel` (Alone): C198: without capacities that count, with routes that are not fixed and in the known modes, whatever becomes of the agents of all processes in a number of days is something that the sequential program can make of them, from the copy of the world of any of the processes, for some random numbers. Populations are those of that copy on all processes, and the sequential program can compute the weights for new agents on these days.
* `Flee.C198_sequential` (Alone): The other way round: whatever the sequential program can make of the agents of all processes, the parallel program can make of them, for some random numbers on every process, if there is a location and agents do not disappear in camps.
* `Flee.C198_same` (Alone): So the sequential and the parallel program can make the same of the agents.

### C199 Agents know nothing of places out of view — proved

*How:* The recursive search for routes is run in both countries side by side: it only visits links and stops of walks in view (Lemmas/Locality), and the fuel suffices in both (C21).

* `Flee.C199_view` (Locality): C199: if two countries look the same from a location within the awareness level, agents there choose the same route with the same random numbers. Routes are not fixed.
* `Flee.C199_elsewhere` (Locality): Whatever happens to a location that no walk in view leads to makes no difference.
* `Flee.C199_neighbours` (Locality): With awareness level 1 (or less) and no markers next to the location, only the location, its open links and its neighbours count.

### C200 Unconnected parts of a country do not influence each other — proved

*How:* Computations that see and change one part only are closed under sequencing; each step of an agent is one for the part it is in (Lemmas/Parts). Runs of a part and runs of the whole are turned into each other by dropping and interleaving random numbers. That agents have no plans to go to the other part is an invariant of all operations.

* `Flee.C200_parts` (Parts): C200: where no link connects a part of a country with the rest, and routes are not fixed, the agents can become others in a number of days if and only if none changes from one part to the other, the agents of the part can become their counterparts without the others, and the others can become theirs without them, whether or not capacities count.
* `Flee.C200_without` (Parts): In particular, what happens to the agents of the part is possible without the others.

### C201 Git's description of a commit is read back — proved

*How:* The regular expression is the cut at the last two hyphens; cutting and joining texts are inverse, and a number has one way of writing without zeros in front. The converse reads the parts off a successful match. C201_commit: the commit and its date.

* `Flee.C201_read` (Version): C201, reading. For every tag, number of commits, commit and prefix: from git's description of a commit the program reads back the tag without the prefix, the number, the commit and whether there are changes, also if the tag contains hyphens or looks like a description itself.
* `Flee.C201_back` (Version): C201, writing. If the tag is more than the prefix, then the long style gives the description back without the prefix.
* `Flee.C201_commit` (Version): C201, commit and date. Whatever style is used, the answer names the commit that git gave, without the line break after it, and the day and the time of the commit, with a letter T between them instead of a blank and no blank before the zone.
* `Flee.C201_only` (Version): C201, only descriptions. Where the pieces have a tag, the text of git consists of the prefix, that tag, digits for the number, the commit and possibly the mark.
* `Flee.C201_untagged` (Version): C201, without tags. If git gives just a commit, then there is no tag, the number is that of all commits, and the commit is written with the first seven characters of its name, however many git wrote.
* `Flee.C201_other` (Version): C201, other texts. A description with a hyphen that is none of these gives the version `unknown` together with a message and the commit.

### C202 Versions tell commits apart — proved

*How:* The version is cut at its first plus sign and then at its full stops, none of which occur in numbers and commits. Tags with a plus sign are left out because they collide, which is proved as well (C202_plus_needed).

* `Flee.C202_apart` (Version): C202, telling commits apart. For all commits whose tags have no plus sign: if two have the same version in the style that is used, then they have the same tag, the same number of commits since, both or neither have changes, and they are the same commit, unless the version is just a tag.
* `Flee.C202_plus_needed` (Version): C202, tags with a plus sign. Tags with a plus sign have to be left out: such a tag can look like a version of another one.
* `Flee.C202_exact` (Version): C202, tagged commits. A commit with a tag and without changes is called by its tag in all styles except the long one.
* `Flee.C202_plus` (Version): C202, local versions. A version has a plus sign if and only if its commit is not just a tagged one without changes or its tag has one, and it has no second one unless the tag has.
* `Flee.C202_hidden` (Version): C202, what other styles hide. In the style `pep440-pre` neither the commit nor changes to it can be seen in the version, and in the style `pep440-old` the commit cannot.

### C203 The version of an archive is a tag of its commit — partial

*How:* Splitting and stripping give back the listed names; the list is sorted by an order that is shown to be that of a dictionary, so that the first with the prefix is the least. C203_commit: commit, date and cleanness of an archive.

* `Flee.C203_missing` (NoVersion): C203, missing texts: an archive whose file lists the names but not the commit raises an exception, and so does one whose file has the commit but no names.
* `Flee.C203_false` (Version): C203 is false of the code: without a tag, the name of a branch is taken if it has a digit, together with what git writes before it.
* `Flee.C203_partial` (Version): C203, partially: if the commit has a tag, then the version is one of its tags with the prefix, the first of them in the order of a dictionary; in particular it does not depend on the order in which git lists the names. If there is no tag with the prefix, then the version is `0+unknown` with a message. Missing from the full claim: commits without any tag, for which a name with a digit is taken.
* `Flee.C203_branch` (Version): C203, without tags: then the version is a listed name with the prefix and with a digit, the first such in the order of a dictionary, or else `0+unknown`.
* `Flee.C203_commit` (Version): C203, commit and date: an archive is never said to have changes, it knows its commit, and its date if a version was found.
* `Flee.C203_unexpanded` (Version): C203, unexpanded texts: outside an archive no version is taken from the file.

### C204 The package and the program that installs it name the same version — partial

*How:* The reader of the file finds the values between the quotation marks whatever is in them; then both programs try the same sources in the same order, up to the name of the directory.

* `Flee.C204_unknown` (NoVersion): C204, no source: without git, and with the file as it is in the repository, both answer `0+unknown`, with a message and without a commit.
* `Flee.C204_false` (Version): C204 is false of the code: the installed package looks for a directory whose name begins with the word `None`, which stands in its settings for the missing name of the directory, and takes the rest of the name for the version.
* `Flee.C204_partial` (Version): C204, partially: they name the same version if git answers there, or if none of the three directories around the package has a name that begins with `None`. Missing from the full claim: such directories without git.
* `Flee.C204_release` (Version): C204, releases: from a file with a written version and without the three values, the program that installs the package takes that version.

### C205 A time step raises no error — partial

*How:* Every part of a time step is shown to return on states in which scores are set and weights are not negative, starting from the route that an agent keeps; the search for routes always finds the link that does not lead to a marker. Termination is C08.

* `Flee.C205_returns_partial` (Steady): C205, what holds: a time step returns if, in addition, every location with open links has one that does not lead to a marker, and there is no location without open links or else neither random choice of links nor pruning is on. Missing from the full claim: countries without these properties, for which it is false (`C205_marker_false`, `C205_random_false`, `C205_pruning_false`).
* `Flee.C205_days_partial` (Steady): C205, for any number of days. Missing from the full claim: as for one day.
* `Flee.C205_marker_false` (Steady): A town whose only road leads to a marker where no other road starts: the agent that wants to leave finds no route, and the code takes the length of it.
* `Flee.C205_random_false` (Steady): Agents that choose links at random (awareness level 0) and a town without roads: the code draws a number below 0.
* `Flee.C205_pruning_false` (Steady): Pruning of routes and a town without roads: the code takes the largest of no weights.
* `Flee.C205_false` (Steady): 
* `Flee.C205_always_partial` (Waiting): C205 for any number of days: there is one bound on the links an agent completes in a day, for all days and random numbers. Missing from the full claim: as for `C205_returns_partial`.

### C206 Short roads are never slept on — partial

*How:* Invariant of histories: no agent is on a link, as the day's distance always covers the link that is left. The sum is then that of the counters of locations.

* `Flee.C206_settled_partial` (Steady): C206, what holds: it is true of links that are shorter than what agents travel in a day. Missing from the full claim: links that are exactly as long, for which it is false (`C206_equal_false`).
* `Flee.C206_equal_false` (Steady): Two towns that are exactly one day apart: the agent has gone the whole way and is still on the road.

### C207 Tests that count agents cannot fail by chance — proved

*How:* Arrivals keep what C205 and C206 ask for, so that both are applied day by day; the set-up of the tests is evaluated with the random numbers as a variable.

* `Flee.C207_arrivals` (Steady): C207, for every country: agents arrive every day, and all links are shorter than what agents travel in a day. Then no day raises an error, and after every day the numbers of agents of the locations add up to the number of agents that arrived, whatever the random numbers.
* `Flee.C207_one_agent` (Steady): C207: the test with one agent passes for every sequence of random numbers and any number of days: no step raises an error, and at the end the numbers of agents of the four locations add up to one.
* `Flee.C207_toy_escape` (Steady): C207: the test in which agents flee from one town passes whatever the numbers of refugees in the data file and whatever the random numbers: at the end the numbers of agents of the four locations add up to the number of refugees.

### C208 The largest count and the days with data — partial

*How:* Induction over the rows with the largest count so far; the days increase, so that the loop stops at the right row or just after it.

* `Flee.C208_peak_partial` (Data): C208: if there is a row for the last day, or all rows are before it, the result is the largest count up to that day. Missing from the full claim: last days between two rows, see `C208_peak_false`.
* `Flee.C208_peak_false` (Data): Between two rows, the count of the next row after the period is considered too: with 10 refugees on day 0 and 100 on day 5, the maximum of the first three days is said to be 100.
* `Flee.C208_interpolated` (Data): C208: a day counts as interpolated exactly if no row is for that day.

### C209 Places that count nothing are not entered — partial

*How:* A random number in the unit interval never falls on a route of weight 0 while another route has a positive weight; without softening a place of weight 0 has the score 0. The invariant that agents are elsewhere and have no plans is kept day by day; the set-up of the test is evaluated with the random numbers as a variable.

* `Flee.C209_kept_out_partial` (Shunned): C209, what holds: it is true of agents that look one link ahead, without pruning of routes and without markers, if the place where they are always has a road to a place that is worth something and has neither conflict nor a limit to its capacity. Missing from the full claim: places that may be full, for which it is false (`C209_full_false`), and agents that look further, for which it is false, too (`C209_through_false`).
* `Flee.C209_arrivals_partial` (Shunned): C209, with new agents every day. Missing from the full claim: as for agents that are there from the beginning.
* `Flee.C209_foreign_weight` (Shunned): C209: the test of the weight of places abroad passes whatever the numbers of refugees in the data file and whatever the random numbers: no step raises an error, and at the end nobody is abroad.
* `Flee.C209_full_false` (Shunned): If all places that are worth something are full, all places count the same, those abroad included: an agent leaves a town from which there is a road abroad and a road to a full camp, and goes abroad.
* `Flee.C209_through_false` (Shunned): Agents that look two links ahead go through places abroad, though these count nothing.
* `Flee.C209_false` (Shunned): 

### C210 A place that everyone leaves is empty at the end of the day — proved

*How:* The decision, the journey and the deactivation are followed for one agent; which places are left or not is not changed by time steps and arrivals, so that days can be repeated. The closure of a location is taken from C31 and C33.

* `Flee.C210_all_leave` (Leaving): C210: a place that everyone leaves has open roads to places that nobody leaves, shorter than what agents travel in a day, and no camp has a limit to its capacity. Then an agent in it that has no plans is at the end of one of the roads at the end of the day, whatever the random numbers. If camps deactivate agents and the camp at the end of the road deactivates all, the agent is deactivated.
* `Flee.C210_daily` (Leaving): C210, with new agents every day: if everyone leaves the first location, for places that nobody leaves, then all agents are in these places after every day, and the first location is empty.
* `Flee.C210_held` (Leaving): C210, the other way round: with new agents every day, if nobody leaves any place that has agents, or has no open roads to leave it by, then agents are added to the first location and the numbers of agents do not change otherwise.
* `Flee.C210_toy_escape` (Leaving): C210: the test in which agents flee from one town empties the town, whatever the numbers of refugees in the data file and whatever the random numbers: at the end all agents are in the three camps.
* `Flee.C210_camp_sink` (Leaving): C210: the test of camps that deactivate agents passes for any number of agents, any number of days and all random numbers: no step raises an error, and all agents are deactivated.
* `Flee.C210_tiny_closure` (Leaving): C210: the test of closed locations passes for any number of new agents before and after the closure and all random numbers: no step raises an error, the agents that came before the closure are in the location that is closed, and those that came after it are where they came.

### C211 The program does not look ahead — proved

*How:* A transformation of the ecosystem that replaces the closures commutes with all operations; two programs are related day by day as long as what is dated before the end agrees, with errors compared as well. For lengths: the days of a longer run are a prefix, by induction.

* `Flee.C211_no_foresight` (Foresight): C211: what a run shows does not depend on what the program is given for days after the end of the run: conflicts, flood levels, changes of type, closures, and data later than the first row at or after the end. This includes errors.
* `Flee.C211_longer` (Foresight): C211: a longer run begins like a shorter one: it has the same camps and the same first days, and where the shorter one fails it fails with the same error.
* `Flee.C211_data_ahead` (Foresight): C211: the data are looked ahead at by one row. Two programs whose data agree on all rows dated before the end of the run, and agree in all else, need not show the same: the data between two rows are interpolated.

### C212 Camps deactivate agents with the probability given in the file of locations — partial

*How:* The comparison is added after each time step; the days with it are shown to be the days without it up to the first agent in such a camp. That no agent is deactivated is an invariant of all operations of the program: locations made from the file have no numeric probability.

* `Flee.C212_raises` (Sinks): C212: as soon as an agent is in a camp about whose deactivation of agents the file says something, the program fails: it compares a random number with text.
* `Flee.C212_false` (Sinks): C212 is false of the code: a program that runs when the attribute is not looked at fails.
* `Flee.C212_partial` (Sinks): C212, the part that holds: if camps are no sinks, or no agent ever is in such a camp, the attribute does not matter; and no error but the one of the comparison comes from the attribute. Missing from the full claim: that a run in which agents reach such a camp goes on, and that they are deactivated.
* `Flee.C212_never` (Sinks): C212: in no run of the program is an agent deactivated, whatever the file says.

### C213 In a run, a camp turns people away exactly when it holds as many as it has places — partial

*How:* `Repels` and `Inviting` say that the multiplier of a location's attractiveness is 0 or 1; `FirstCount` is what the data show under a name on day 0. `C213_partial` shows that in every run whose program does not insert the people of day 0 (or spawns by conflicts or floods) the capacity stays that of the start, so the multiplier is 0 exactly from the number of places on. `C213_early`: with insertion, the limit is the number of places less the count of day 0, although the people inserted are counted as occupants too. `C213_never`: if the count of day 0 reaches the number of places, there is no limit left. `C213_no_places`: no places in the file means no limit. Proved by following the capacity through each part of a day (`day_capacity`): only `spawnDaily` changes it.

* `Flee.C213_false` (Fullness): A camp with 5 places and 3 people in it repels everybody, because the 3 people of day 0 count twice.
* `Flee.C213_partial` (Fullness): If the people of day 0 are not counted as being in the camps, the claim holds. Missing from the full claim: programs that insert them, for which it is false (`C213_false`); what happens then is in `C213_early` and `C213_never`.
* `Flee.C213_early` (Fullness): With the people of day 0 inserted, a location repels everybody as soon as it holds the number of its places less those that the data show there on day 0, whether or not these people are among those counted.
* `Flee.C213_never` (Fullness): If the data show as many people on day 0 as the location has places, or more, it has no limit at all from then on.
* `Flee.C213_no_places` (Fullness): A location whose row gives it no places has no limit, in every program.

### C214 Agents that avoid short stints take a break only after a full day's distance — partial

*How:* `Brisk` switches the rule on with agents that know their neighbours and travel at the general speed; `OpenCountry` has no full camps, no markers and no closed roads; `RestsAfterTravel` is an agent whose count of places grew during the day and that ends it in a town with roads. `kmToday` is the distance of the day (C13). `C214_partial` follows the time step of the agent (`rests_day`): as long as the index after the step would be under one half, each arrival forces a further move, a forced move out of a town with open roads always succeeds, and a road has no town at its end in the same step unless the agent arrives. `C214_false`: with roads of 719, 108 and 180 km the agent rests after 108 km on the third day and after 180 km on the fourth. `C214_not_driven`: an agent that the rule does not drive on (the rule is off, or the index with today's distance is at least a full day) stays where it arrives unless a random number is below the chance of the place.

* `Flee.C214_false` (Stints): The index of recent travel remembers more than two days: after two days of 360 and 359 km, the agent rests after 108 km and again after 180 km the next day.
* `Flee.C214_partial` (Stints): What holds: the distance of today, that of yesterday by a half, that of the day before by a quarter and so on, as kept in the index of recent travel, add up to at least a full day's distance. Missing from the full claim: the last two days alone, for which it is false (`C214_false`).
* `Flee.C214_not_driven` (Stints): C214, the other direction: agents are driven on only by the rule, and only if they have not travelled a full day's distance. Without floods, an agent that completes an open link and is not driven on stays where it arrives unless a random number is below the chance of the place.

### C215 A run needs conflict tables that cover all its days — proved

*How:* `C215_covered` takes a completed run apart (`run_get`, `day_parts`): on the day after the last entry, reading the entry of the day would have failed. `C215_no_message` evaluates the schedule of the following day for every state of the country: a table that has just ended is long enough for the check of the code and fails at the entry. `C215_short` tells for every table that does not reach a day which of the two errors is raised.

* `Flee.C215_covered` (Tables): C215: a run completes only if every conflict table has a value for each of its days, also where the values no longer change.
* `Flee.C215_no_message` (Tables): C215: the day after is the first at which a table can end, and there the program stops with an IndexError: the message about tables that are too short is not reached.
* `Flee.C215_short` (Tables): C215: which error a table raises that does not reach the day. If it ends one or two days before, it is an IndexError; if it ends earlier, the message is reached and raises a NameError itself.

### C216 The chance to leave a place is the probability of leaving it — proved

*How:* The probability of an event is the part of the N^M ways to draw the first M numbers with which it happens (Spec/Chances). The decisions of one agent read at most two numbers and change nothing but numbers of agents (`evolveOne_reads`), so what the next agents do has the same probability whatever the agents before them drew; the first number an agent reads decides whether it leaves (`free_decides`, from C12). `allOut_probability` is an induction over the agents, `leaves_iff` connects being on the road after the decisions with having left at the end of the time step, and `always_returns` shows that the time steps return for all random numbers with the same fuel. `C216_below` compares the part of the N values below a chance with the chance.

* `Flee.C216_independent` (Chances): C216: agents without a planned route leave their places independently of each other, each with the chance of its place as probability. The random numbers are each one of `N` equally likely multiples of `1 / N`, as those of Python with `N = 2 ^ 53`.
* `Flee.C216_leaving` (Chances): C216 for one agent.
* `Flee.C216_mean` (Chances): C216 for whole groups: the average number of those that leave.
* `Flee.C216_below` (Chances): C216: the part of the random numbers below a chance is the chance, up to the distance of two random numbers.

### C217 The share of a location in the spawn weights is the probability that a new agent starts there — proved

*How:* Probabilities as in C216. Conditions on different random numbers are independent (`probability_each`); the k-th new agent starts in location i just if the k-th number lies in the interval of the location (`starts_iff`, from C43). `C217_share` compares the part of the N values in that interval with the share.

* `Flee.C217_share` (Starts): C217: the number of values of a random number that choose a location is its share of them, up to one.
* `Flee.C217_independent` (Starts): C217: new agents start independently of each other, each in a location with the share of the location as probability.
* `Flee.C217_starts` (Starts): C217 for one new agent.
* `Flee.C217_mean` (Starts): C217 for all new agents of a day: how many of them start in a location on average.
* `Flee.C217_not_unique` (Starts): The documentation of the code says that the locations it returns are different; they are drawn with repetition.

### C218 The fates of agents are independent where there is room for all — proved

*How:* Probabilities as in C216. What an agent does in a time step is a tree of random numbers, read one after the other, that depends on nothing but the country without the numbers of agents in it (`Lone`, `Tree`, Lemmas/Alone): this is also how C197 is proved. The expected value of a product of numbers that depend on one agent each is the product of the expected values, over a phase, a day and many days (`expect_each`, `law_day`, `law_days`, Lemmas/Law). Days that fail count as not meeting any requirement. `C218_each` and `C218_mean` assume that the days cannot fail; `always_returns` gives cases where they cannot.

* `Flee.C218_independent` (Law): C218: without capacities that count, what becomes of the agents in a number of days is independent, and each agent is as likely to become something as if it were simulated on its own. The random numbers are each one of `N` equally likely values, for any `N`; the generator of the program has `N = 2 ^ 53`.
* `Flee.C218_each` (Law): If the days cannot fail, each agent is as likely to become something among the others as on its own.
* `Flee.C218_mean` (Law): If the days cannot fail, the average number of agents that become something is the sum of the probabilities that each agent on its own becomes it.

### C219 The share of a route in the weights is the probability that an agent takes it — proved

*How:* Spec/RouteChance.lean gives the fraction of random numbers in the interval of a share and says what it is to be on the road to a place after the decision of the day. Props/RouteChance.lean: `C219_choice` is the law of the weighted choice, for any candidates; `C219_share` compares the fraction with the share; `C219_heads` is the law of the destination of an agent: the candidates do not depend on the random numbers (the frame lemma of Lemmas/Parts), the decision to leave reads the first one and the choice the second.

* `Flee.C219_choice` (RouteChance): C219: the probability that the chosen candidate is one of those with `R` is the sum, over these candidates, of the parts of the random numbers in the intervals of their shares.
* `Flee.C219_share` (RouteChance): C219: the part of the random numbers in the interval of a share is the share, up to the distance of two random numbers.
* `Flee.C219_heads` (RouteChance): C219: an agent without a planned route sets out for a neighbour with, as probability, the chance of its place times the share, in the weights, of the routes that begin with that neighbour.

### C220 A separate file of totals replaces the totals of the data — partial

*How:* Model/Override.lean has the file as one more column. `C220_override_partial` (Props/Override.lean) says what the program does instead: where totals are summed from the camps, the change in the file is added to the changes in the camps; where they are taken from the column of totals, the file has no effect; the column can be read by its name. `C220_override_false` has a witness for either way of counting.

* `Flee.C220_override_partial` (Override): C220, what the program does: the separate file becomes one more column, which can be read by its name. Where totals are summed from the camps, the change in the file comes on top of the changes in the camps; otherwise the file changes nothing. Missing from the full claim: that the arrivals are the change in the file (`C220_override_false`).
* `Flee.C220_override_false` (Override): C220 is false for either way of counting: with 10 arrivals a day in the camp and 5 in the separate file, there are 15 or 10, and never 5.

### C221 Where a fraction of the remaining population flees every day, a population shrinks geometrically — proved

*How:* Props/Decay.lean, about the model of the run script. `C221_day`: on each day there is the fraction `FleeingFraction` (rate times intensity, or the entry for the flood level, or 0) and the population falls by this fraction, truncated, if it is at most 1. `C221_product`: bounds after n days with any fractions; `C221_geometric`: with one fraction x the error stays below 1/x; `C221_rest`: the population stays if and only if less than one person would flee; `C221_run` puts them together for a run. The example runs the program with a half of 9 people fleeing per day: 9, 5, 3, 2, 1, 1.

* `Flee.C221_day` (Decay): C221: with the fraction mode and populations that shrink by those who flee, in every run the population of every location shrinks, every day, by the fraction that the settings give for the conflict or the flood level of this day, without the part of a person, if this fraction is at most 1.
* `Flee.C221_product` (Decay): C221: after any number of days, of the population at least what the fractions leave remains, and at most one person a day more.
* `Flee.C221_geometric` (Decay): C221: with the same fraction every day, the population follows the geometric curve, and exceeds it by less than the number of people of which the fraction is one person.
* `Flee.C221_rest` (Decay): C221: fewer people than the number of which the fraction is one person never flee.
* `Flee.C221_run` (Decay): C221: in a run in which the settings give the same fraction for a location every day, its population after `n` days follows the geometric curve.

### C222 The time that agents stay in a place is geometrically distributed — proved

*How:* `C222_waiting` and `C222_mean` (Props/Waiting.lean). Probabilities are counted as in C216: each random number is one of N equally likely values. By C218 the agent may be simulated on its own; then it has stayed for n days just if none of the first n random numbers was below the chance (Lemmas/Waiting.lean), which has the probability (1-m)^n. No day fails (`C205_always_partial`, Lemmas/Days.lean).

* `Flee.C222_waiting` (Waiting): C222: where there is room for all, an agent without a planned route is still in its place after `n` days with the probability `(1 - m) ^ n`, where `m` is the chance of the place as the program compares it with random numbers.
* `Flee.C222_mean` (Waiting): C222 for groups: the average number of those that have not left after `n` days.
* `Flee.C222_evenings` (Waiting): C222 for the time in a place: of the first `n` evenings, an agent spends `(1 - m) * (1 - (1 - m) ^ n) / m` in its place on average, which is close to `(1 - m) / m` if there are many. The statement is for a place with any chance, also 0, so that `m` is on the other side.

### C223 The number of days that an agent walks on a long link is binomially distributed — proved

*How:* `C223_binomial` and `C223_mean` (Props/Progress.lean). By C218 the agent may be simulated on its own; then it takes one random number a day, and its distance is the sum of the speeds of the days (Lemmas/Progress.lean, by induction over the days). The sets of days on which the numbers are below the probability to walk have the product probabilities of `probability_each`. An agent whose other speed is the walking speed (first link with start_on_foot) always walks, so the first theorem excludes it; the second does not.

* `Flee.C223_binomial` (Progress): C223: where there is room for all, an agent on a link that is long enough is on foot on `j` of `n` days with the probability of the binomial distribution, and has come as far as this takes it; `q` is the probability to walk as the program compares it with random numbers.
* `Flee.C223_mean` (Progress): C223 for the average: an agent on a link that is long enough advances by `q * walk + (1 - q) * ride` a day on average.

### C224 Agents appear with the weights of the day — partial

*How:* `C224_weights_partial`, `C224_late`, `C224_turn`, `C224_ninety` (Props/Lag.lean); `C224_false`. The weights are computed at the start of `evolve`, and by operations on conflict zones; an invariant of runs says that the weights after a day are those of that day for the places as they are (moving changes neither populations nor conflicts, Lemmas/Nature.lean). So on the next day they are a day old, unless the schedule has added or removed a conflict zone, in which case all weights are new. The partial theorem gives the alternative for every day, the next two when each holds for runs with conflicts.csv, the last the documented list.

* `Flee.C224_weights_partial` (Lag): C224: on every day but the first, the weights with which agents appear are those of the day, or those of the day before and of the places as they were then. Missing from the full claim: that they are always those of the day, which is false.
* `Flee.C224_late` (Lag): C224: on a day on which nothing begins and nothing ends, agents appear with the weights of the day before.
* `Flee.C224_turn` (Lag): C224: on a day on which a conflict of the table begins or ends at a place of the map, agents appear with the weights of this day, everywhere.
* `Flee.C224_ninety` (Lag): C224: with the documented list, agents appear with the full weight on the day 90 days after the beginning of the conflict, and with half of it on the next, if nothing begins or ends on these days.
* `Flee.C224_false` (Lag): C224, first part: the weight of a conflict zone is that of the day before.

### C225 Only documented keys of the settings decide a run — partial

*How:* `C225_partial`, `C225_other`, `C225_unread` (Props/Keys.lean); `C225_false`. Model/Configure.lean goes from the parsed file of settings and the rows of the other files to the run. Reading a section depends on it through the looked-up keys only (Lemmas/Keys.lean), and the run depends on the settings through those that are used, so it is enough that the files agree on the list `decisive`. `C225_other` adds any other line to a section.

* `Flee.C225_partial` (Keys): C225, the part that holds: if two files of settings that can be read agree on the keys that are looked at, the runs with them are the same, errors included. These are the documented keys without those in `unread`, which have no influence, and the keys in `unlisted`. Missing from the full claim: that the keys in `unlisted`, which are not documented, have no influence; they do.
* `Flee.C225_other` (Keys): C225: any other line in one of the four sections has no influence on the run, as long as the file can be read.
* `Flee.C225_unread` (Keys): C225: this goes for the documented keys `camps_are_sinks` and `max_crossing_speed`.
* `Flee.C225_false` (Keys): C225 is false of the code: the undocumented key `camps_are_sicks` decides whether a run comes to its end.

### C226 The settings of the page on floods give a simulation with floods — partial

*How:* `C226_exit`, `C226_unmentioned`, `C226_stops`, `C226_partial` (Props/FloodPage.lean); `C226_false`. The file of the page is read by the model for arbitrary tables; the other theorems are about all files with the stated keys.

* `Flee.C226_exit` (FloodPage): C226: the program gives up when it reads that file, whatever the tables are.
* `Flee.C226_unmentioned` (FloodPage): C226: so with every file that restricts spawning to flood zones and does not mention conflict zones.
* `Flee.C226_false` (FloodPage): C226 is false of the code.
* `Flee.C226_stops` (FloodPage): C226: with floods as the driver of spawning and the tables outside a section `flood_rules`, the tables are not read, and the step of an agent in a place under water fails.
* `Flee.C226_partial` (FloodPage): C226, the part that holds: a file that also turns off the restriction to conflict zones and has the tables in a section `flood_rules` gives a simulation with floods and these tables; the mode is that under `spawn_mode`. Missing from the full claim: that this is what comes of the file that the page asks for.

### C227 With fixed routes all agents take the same route between two places on a day — partial

*How:* `C227_partial`, `C227_plan` (Props/SameRoute.lean); `C227_false`. Invariant of the tables built at the start of a day: each destination has one entry, whose route ends there (Lemmas/SameRoute.lean). Tables do not change during the day, and a plan is an entry of the table, so that two plans with one destination are one entry.

* `Flee.C227_partial` (SameRoute): C227, for agents that make their plans on that day: they take the same link and have the same stops before them. Missing from the full claim: agents that spend a night at a place on their way and go on with a plan from an earlier day (`C227_false`).
* `Flee.C227_plan` (SameRoute): C227, at any moment of a day, also for agents that arrive at a place and go on from there on the same day: whatever counts of agents and random numbers there are, two plans from one place to one destination are the same.
* `Flee.C227_false` (SameRoute): C227 is false as stated: the agent that has spent the night at A goes to B by the long road that it planned two links before, while the other agent takes the short one.

### C228 Versions have the formats that are described for their styles — partial

*How:* `C228_partial`, `C228_names` (Props/Styles.lean); `C228_false`. The described formats are a table of their own (Spec/Styles.lean), into which the tag, the numeral of the distance and the commit are filled.

* `Flee.C228_partial` (Styles): C228, partially: the version has the described format, except in the style `pep440-post` without a tag, where the commit is added to it. Missing from the full claim: commits without a tag in the style `pep440-post`.
* `Flee.C228_false` (Styles): C228 is false of the code: for a commit without a tag, the description of `pep440-post` has no commit but the version has.
* `Flee.C228_names` (Styles): C228, names of styles: no style and `default` mean `pep440`. For any other name without a format, asking for a version raises an exception, unless there was an error already.

### C229 Larger weight powers favour the better routes — partial

*How:* `C229_partial`, `C229_powers` (Props/Power.lean); `C229_false`. The search with a power is the search without, with the power applied to each weight (Lemmas/Power.lean, induction over the recursion); then shares are compared by a double sum over better and worse routes.

* `Flee.C229_partial` (Power): C229, partially: the share of the best routes does not fall, where routes are not fixed. This holds with and without dismissing routes beforehand. Missing from the full claim: fixed routes, whose weights are powers times the score of the destination.
* `Flee.C229_powers` (Power): C229, powers: of two powers the larger one is steeper.
* `Flee.C229_false` (Power): C229 is false of the code with fixed routes: without a power the camp weighs more than the town, since the score of the destination counts twice, and with the third power it weighs less.

### C230 More populous locations have scaled chances to leave — partial

*How:* `C230_equation`, `C230_base`, `C230_partial` (Props/Scaling.lean); `C230_false`. Of powers only that they rise or fall with the base, and the powers of 1 and with exponent 0, are used (`PowerLaws`, Spec/Scaling.lean).

* `Flee.C230_equation` (Scaling): C230, the equation: the chance is that of the location times a power of its size in units of the base, unless there are floods or the agent is driven on from a town.
* `Flee.C230_base` (Scaling): C230, the base: a location of the size of the base keeps its chance, whatever the factor; and with factor 0 all locations do.
* `Flee.C230_partial` (Scaling): C230, partially: locations of larger size have higher chances with a positive factor, and lower ones with a negative factor, where the size is the larger one of population and capacity. Missing from the full claim: a location with fewer people but a larger capacity.
* `Flee.C230_false` (Scaling): C230 is false: a location with 100 people and room for 5000 has a higher chance than one with 200 people.

### C231 Settings that say no are off — partial

*How:* `C231_partial`, `C231_texts` (Props/Answers.lean); `C231_false`. They follow from `C63_taken`, which says for every documented key and every sort of value what the setting becomes.

* `Flee.C231_texts` (Answers): C231, what texts do: every text but the empty one turns the setting on.
* `Flee.C231_partial` (Answers): C231, partially: a key without a value, and the numbers 0, turn the setting off, whatever the default; `false` does so by `C63_documented_partial`. Missing from the full claim: texts, as with the word in quotation marks; they turn the setting on, see `C231_texts`.
* `Flee.C231_false` (Answers): C231 is false: `"False"` turns a setting on.

### C232 The rules of the first version are a shorthand — proved

*How:* `C232_shorthand` (Props/FirstRules.lean). The settings read from the two files agree on all that the program looks at (`readFromYML_first`, Lemmas/Keys.lean).

* `Flee.C232_shorthand` (FirstRules): C232: the key for the rules of the first version is shorthand for the five settings. A run with it is the run without it and with the settings given, for all other files and all random numbers, and whatever the file says for the five settings besides the key.

### C233 Which settings files are accepted — proved

*How:* `C233_accepted` (Props/Accept.lean). Each step of reading has a result exactly if its key is fine (Lemmas/Accept.lean); the conditions on single keys do not depend on other values, apart from the three switches.

* `Flee.C233_accepted` (Accept): C233: a file whose sections are sections is read exactly if it is acceptable, whatever was read before.

### C234 Comparing the outputs of two simulations — partial

*How:* `C234_partial`, `C234_needs`, `C234_swap`, `C234_same` (Props/CompareOut.lean), on the model of the table that the postprocessing programs read (Model/Validation.lean).

* `Flee.C234_needs` (CompareOut): The program has the names of ten camps written into it: output without one of them is never compared.
* `Flee.C234_false` (CompareOut): 
* `Flee.C234_partial` (CompareOut): If all ten camps are there, the outputs are compared; for each of the ten camps, and for all camps together, the table has the number of people by which the second simulation is above the first. Missing from the full claim: output without one of the ten camps.
* `Flee.C234_swap` (CompareOut): Compared the other way round, two outputs with the same number of days have the opposite differences, whatever the columns hold.
* `Flee.C234_same` (CompareOut): An output compared with itself has no differences.

### C235 What is drawn of the logs of coupled models — partial

*How:* `C235_partial`, `C235_short`, `C235_silent` (Props/ReadLogs.lean): the logs are those written by `exchangeRow` (Model/Multiscale.lean), for all days and instances.

* `Flee.C235_short` (ReadLogs): After a run of a single day nothing is ever drawn.
* `Flee.C235_silent` (ReadLogs): A run in which no location sends agents has a log with days only, and nothing is drawn.
* `Flee.C235_false` (ReadLogs): 
* `Flee.C235_twice_false` (ReadLogs): Also in longer runs: a location that is coupled twice has two columns and one heading, so that the next location is drawn with its numbers.
* `Flee.C235_partial` (ReadLogs): The numbers are drawn if the run has at least two days, some location sends agents and no two of them have the same name: then the days and, in the order of coupling, each such location with the numbers of all instances are drawn, and nothing else. Missing from the full claim: runs of one day, and locations coupled twice.

### C236 Errors in the figures for browsers — partial

*How:* `C236_partial`, `C236_shares`, `C236_figures`, `C236_space` (Props/WebFigures.lean), with the lemmas on columns and sums of C166 and C167. Unlike plot_flee_output.py this program stores rescaled numbers as floating point numbers.

* `Flee.C236_false` (WebFigures): Differences are rounded to four digits.
* `Flee.C236_partial` (WebFigures): The plain curve is that, and the rescaled one is off by at most one in 20,000 for each camp, per refugee; unlike in the figures of the other program (C167) no whole persons are lost. Missing from the full claim: the exact rescaled numbers.
* `Flee.C236_shares` (WebFigures): If the camps of the simulation have the same shares as in the data, the rescaled curve is zero.
* `Flee.C236_figures` (WebFigures): With names of single words the whole program draws a figure for each camp, with its numbers, and these curves.
* `Flee.C236_space` (WebFigures): The whole program draws nothing if a camp's name has a space after a first word that is no camp.

### C237 The band and the mean drawn for many runs — partial

*How:* `C237_partial`, `C237_agree`, `C237_order`, and for the program over all camps `C237_program` and `C237_space` (Props/Forecast.lean). Percentiles are those of the sorted numbers with linear interpolation; how many numbers lie on each side, and that larger percentages give larger percentiles, is shown for sorted lists of any length (Lemmas/Forecast.lean).

* `Flee.C237_false` (Forecast): Of eleven runs ten leave the camp empty and one brings eleven people: the mean is 1, the band is 0.
* `Flee.C237_partial` (Forecast): For each day a mean and a band are drawn. The mean is that of the numbers of all runs; it and both ends of the band lie between the smallest and the largest number; the lower end is not above the upper end; and 5 percent of the runs lie below the lower end and 10 percent above the upper end, up to one run. Missing from the full claim: that the mean lies within the band.
* `Flee.C237_agree` (Forecast): If all runs agree on a day, the mean and the band are their number.
* `Flee.C237_order` (Forecast): The order of the runs has no influence.
* `Flee.C237_program` (Forecast): With names of single words the program draws these curves for all camps, in their order.
* `Flee.C237_space` (Forecast): With a camp whose name has a space after a first word that is no camp, nothing is drawn.

### C238 Which runs of a forecast belong to a region — partial

*How:* `C238_partial` (Props/Forecast.lean) is an equivalence: it says exactly when the runs are found, and which ones.

* `Flee.C238_false` (Forecast): If a run has the name of the region in its path but not in its folder, the program stops.
* `Flee.C238_partial` (Forecast): The runs are found exactly if every run with the name in its path has it in its folder; then they are those whose folders begin with it, in their order. Missing from the full claim: runs below a folder with the name of the region.

### C239 The error of several runs — partial

*How:* `C239_partial` (Props/UqOutput.lean) proves that the errors are at most the means, with equality if the runs lie on one side of the data on every day and for every camp. `C239_single` is the case of one run, `C239_order` says that the order of the runs does not matter, and `C239_sums` that the rescaled means add up to the mean total of the data.

* `Flee.C239_false` (UqOutput): C239 is false: the runs are averaged before they are compared with the data, so that errors in opposite directions cancel.
* `Flee.C239_partial` (UqOutput): C239 in part: the printed errors are at most the means of the errors of the runs, and equal to them if for every day and camp the runs are all too high or all too low. Missing from the full claim: equality if they are not, which is false, see `C239_false`.
* `Flee.C239_single` (UqOutput): C239: the error of a single run is its own.
* `Flee.C239_order` (UqOutput): C239: the order in which the runs are read does not matter.
* `Flee.C239_sums` (UqOutput): C239: the rescaled means of all camps add up to the mean total of the data on every day on which all runs have people in camps.

### C240 Figures that compare simulations — partial

*How:* `C240_partial` (Props/CompareCamps.lean) proves it for names of one word and output without numbers of displaced people; it speaks of the figures that are there in the end, since those of later simulations replace those of earlier ones. `C240_space`, `C240_idps` and `C240_words` say what happens otherwise.

* `Flee.C240_space` (CompareCamps): Nothing is drawn if the name of a camp of one of the simulations has a space after a first word that is no camp.
* `Flee.C240_idps` (CompareCamps): With numbers of displaced people in the output nothing is drawn, since then another column counts as one of a camp.
* `Flee.C240_false` (CompareCamps): 
* `Flee.C240_partial` (CompareCamps): If all names are single words and the output has no numbers of displaced people, the figures are those, with the data of the last simulation. Missing from the full claim: names of several words, and output with numbers of displaced people.
* `Flee.C240_words` (CompareCamps): A camp whose name has several words never gets a figure, also if its first word is a camp.

### C241 The colours of the locations are in their order — partial

*How:* `C241_partial` (Props/MapLists.lean) proves it for files with different names, by induction over the rows. `C241_short` says that otherwise there are fewer locations than colours, and `C241_last` which coordinates a name has.

* `Flee.C241_short` (MapLists): With two rows of the same name there are fewer places than colours.
* `Flee.C241_false` (MapLists): 
* `Flee.C241_partial` (MapLists): If all names are different, the lists are in the order of the rows, and so of each other. Missing from the full claim: several rows with the same name.
* `Flee.C241_last` (MapLists): The place of a name is that of its last row.

### C242 What the colours of the locations mean — partial

*How:* `C242_partial` (Props/MapLists.lean) says for which types colour and simulation agree, and gives the colour of all others.

* `Flee.C242_false` (MapLists): 
* `Flee.C242_partial` (MapLists): It does for the words that name the kinds, in small or capital letters, and for conflict zones that are not also called camps; other types are black or, if they are called camps and conflict zones, red, also if the simulation takes them for camps or towns. Missing from the full claim: types that only contain one of the words.

### C243 From which file major routes are read — proved

*How:* `C243_folder`, `C243_here` and `C243_apart` (Props/MajorPath.lean), by induction over the characters of the path: splitting a path and joining its parts gives the path back.

* `Flee.C243_folder` (MajorPath): C243: major routes are read from the file in the same folder whose name is that of the file of links after `major_`.
* `Flee.C243_here` (MajorPath): C243: so it is without a folder.
* `Flee.C243_apart` (MajorPath): C243: two files of links never share a file of major routes, and no file of links is its own file of major routes.

### C244 The log of agents can be read as a table — partial

*How:* Partial: `C244_partial`, `C244_cells` and `C244_named` (Props/AgentText.lean), for texts without commas, by induction over the attributes: every text followed by a comma is one cell, and a line has only one list of cells. `C244_false`: a place with a comma in its name.

* `Flee.C244_false` (AgentText): C244 is false of the code: the texts are written without quotes, and a comma in the name of a place moves all later cells.
* `Flee.C244_partial` (AgentText): If the names of the attributes are those of the first agent, in their order, each value stands below its name, and heading and line have the same number of cells, if no text has a comma. Missing from the full claim: texts with commas in them.
* `Flee.C244_cells` (AgentText): C244: a line has as many cells as the heading only if the agent has as many attributes as the first one.
* `Flee.C244_named` (AgentText): C244: below the names of the ten columns that all logs have stand time, number, home, place, coordinates and what the agent did.

## Disagreements between the properties and the code

The property is false of the code at the place given; the witness is the theorem named.

| property | where and why | witness |
|---|---|---|
| C02 | flee.py:987-1006. `close_link` puts a *copy* of the link, with `numAgents = 0`, into `closed_links`; the agents on the original are in no list until they arrive. | `Flee.C02_visible_total_false` |
| C06 | flee.py:273-285. An agent that completes a link goes on with a full day's speed, so the distance of a day approaches twice the maximum. | `Flee.C06_daily_maximum_false` |
| C08 | flee.py:285. `finish_travel` calls itself without a bound; links of length 0 use up no distance. | `Flee.C08_terminates_false` |
| C14 | flee.py:1668-1673. The index averages kilometres divided by MaxMoveSpeed, and C06 fails. | `Flee.C14_recent_travel_false` |
| C15 | moving.py:155-197. With `capacity_buffer` 1 the test against the buffer comes before the test for full capacity. | `Flee.C15_zero_when_full_false` |
| C19 | moving.py:255-270. The names met before are excluded, but not the location where the search stands, so links from a location to itself are followed. | `Flee.C19_no_loops_false` |
| C22 | moving.py:457-463. `list.remove` takes the first equal route, which need not be at the position of the weight. | `Flee.C22_pruning_false` |
| C23 | moving.py:488 returns an integer, flee.py:145 compares it with names. | `Flee.C23_agents_move_false` |
| C25 | crawling.py:76 stores `origin_names[1:]`, but for major routes the list does not begin with the location. | `Flee.C25_followable_false` |
| C26 | scoring.py:31-45. The decay multiplies the exponent of `ConflictWeight`, so a smaller decay factor makes a conflict zone more attractive. scoring.py:87 reads the forecast from an attribute `forecast_flood_level` that nothing sets (it is `forecast_flood_levels`, InputGeography.py:657), so while a forecast is in use every flood zone with a flood level has the score 0. | `Flee.C26_positive_false`, `Flee.C26_aging_false` |
| C28 | flee.py:1041-1057. Reopening opens all closed links between the two, including those closed by an earlier call. | `Flee.C28_close_reopen_false` |
| C29 | flee.py:1088-1096. With `twoway` the other direction is handled instead of both. | `Flee.C29_twoway_false` |
| C30 | flee.py:987-1006 and 1041-1057. Names are compared with `is not`, that is by identity. | `Flee.C30_equal_names_false` |
| C32 | flee.py:1182-1234. Closing with `twoway=False` closes links of the neighbours, reopening looks at the closed links of the location itself. | `Flee.C32_reopen_location_false` |
| C33 | flee.py:1182-1234. The position does not advance when a call closes or opens nothing. | `Flee.C33_closures_terminate_false` |
| C34 | flee.py:1263-1297. As C28. | `Flee.C34_reopen_border_false` |
| C36 | flee.py:939-964. An unknown name gives `False`, which is used as index 0. | `Flee.C36_unknown_false` |
| C37 | flee.py:1535-1548. A conflict ends town status only. | `Flee.C37_exclusive_false` |
| C38 | flee.py:1410. `self.attributes` does not exist in Ecosystem; an unknown type fails at 1428. | `Flee.C38_type_false` |
| C40 | InputGeography.py:682-709. The intensity is only set when a conflict starts. InputGeography.py:652-659: with flood rules the table of conflicts is not looked at. | `Flee.C40_schedule_false` |
| C41 | flee.py:443-463. `open_camp` without IDP status does not clear the IDP flag. | `Flee.C41_idp_false` |
| C47 | SimulationSettings.py:40-66. Division by the interval. | `Flee.C47_lookup_false` |
| C49 | DataTable.py:351-387. On day 0 the loop begins with the first column, on other days with the second. | `Flee.C49_camps_false` |
| C50 | handle_refugee_data.py:74-88. The factor includes the day-0 population, the scaled entries do not; without a row on the day a variable is unbound. | `Flee.C50_correction_false` |
| C51 | DataTable.py:100-160. The count of the second table is carried forward instead of interpolated, and rows after its end are dropped. | `Flee.C51_add_false` |
| C52 | InputGeography.py:529-552. `if flag == 1` is followed by `if flag == 2 ... else ...`, so the flag 1 makes two links. | `Flee.C52_one_connection_false` |
| C53 | InputGeography.py: in `_ReadMajorLinksFromCSV` the test for comments is followed by `pass` and not by `else`; in `ReadAgentsFromCSV` (365-404) the header must be line 0; handle_refugee_data.py:57-59 takes every line of two or more cells as a correction. | `Flee.C53_corrections_false`, `Flee.C53_comments_false`, `Flee.C53_agents_false` |
| C54 | InputGeography.py:365-404. The header is recognised by its line number, and inner loops reuse the line counter. | `Flee.C54_one_agent_false` |
| C55 | InputGeography.py, `getConflictLocationNames`: column 4 is the latitude, the type is in column 5. | `Flee.C55_names_false` |
| C58 | pflee.py:50. Assertion that the buffer is not empty. | `Flee.C58_no_locations_false` |
| C60 | coupling.py:431-440. Lines beginning with `#` are comments. | `Flee.C60_comment_false` |
| C61 | coupling.py:346-363 and 402. All coupled locations are cleared, but only those with "out" are written; and see C62. | `Flee.C61_lost_false` |
| C62 | flee.py, `clearLocationsFromAgents`: an agent that is kept is added to a list with `+=`, which raises for an object that is not a list. pflee.py:688-698 reads the location of deactivated agents. | `Flee.C62_kept_false` |
| C63 | SimulationSettings.py:131-207. The key read is spelt `camps_are_sicks`. | `Flee.C63_camps_are_sinks_false` |
| C64 | analysis.py. Rounding to four digits; zero for data below 1e-5. | `Flee.C64_zero_data_false`, `Flee.C64_rounding_false` |
| C69 | SimulationSettings.py:31-36 and 298-335. The dictionaries belong to the class and are not reset. | `Flee.C69_earlier_false` |
| C70 | SimulationSettings.py:173-184 and 298-335. Flood rules are enabled by flood-driven spawning, the tables only come with `flood_rules`. | `Flee.C70_flood_tables_false` |
| C71 | pflee.py:606-632 and 841-851. Every process counts every spawned agent, and the exchange sums over the processes. | `Flee.C71_spawned_false` |
| C72 | pflee.py:383 and 939-940. `scores` is an attribute of the class. | `Flee.C72_second_ecosystem_false` |
| C73 | pflee.py:453-470. Totals that every process has are summed over the processes. | `Flee.C73_idps_false` |
| C74 | coupling.py:526-532. The dictionary gets its keys from the first instance. | `Flee.C74_missing_name_false` |
| C75 | coupling.py:123-171, 352 and 402. The direction is only searched for "in" and "out". | `Flee.C75_indirect_false` |
| C77 | InputGeography.py:34-66 and 72-109. Cells are appended to the column, so a column that is missing in a row is a day behind from then on. | `Flee.C77_cells_false` |
| C78 | InputGeography.py:148-157. The table is read if floods drive spawning; `AddNewConflictZones` (645-660) looks it up if flood rules are enabled. | `Flee.C78_levels_read_false` |
| C80 | scoring.py: the location weight of a flood zone is looked up for every level, also 0; in moving.py only for levels above 0. | `Flee.C80_level_zero_false` |
| C81 | scoring.py and moving.py, `getEndPointScore`: both multiply with the location weight. | `Flee.C81_weight_false` |
| C82 | moving.py, `calculateMoveChance`: the chance is multiplied with the mean of the weighted levels, which is 0. | `Flee.C82_no_flood_false` |
| C83 | moving.py, `calculateMoveChance`: the test is `flood_forecaster_timescale > 1`. | `Flee.C83_one_day_false` |
| C84 | moving.py, `calculateMoveChance`: the weights are indexed with the day of the simulation, not with the number of days ahead. | `Flee.C84_weights_false` |
| C87 | flee.py:1705 and 1897. The default argument `attributes={}` is one dictionary for all calls. | `Flee.C87_isolation_false` |
| C88 | As C87. | `Flee.C88_update_false` |
| C90 | InputGeography.py:446-447 stores the fourth column (latitude in all tables of conflict_input) as x, flee.py:425-428 uses x as the longitude. | `Flee.C90_coordinates_false` |
| C91 | moving.py:49-51. The distance is taken from `agent.location`, where the agent is now, not from `agent.home_location`. | `Flee.C91_home_false` |
| C92 | moving.py:143-144 and 148-149. `min(1.0, endpoint.pop)` bounds the population from above by 1; `max` would bound it from below. | `Flee.C92_population_false` |
| C93 | moving.py:39-46. There is no upper age for boys, and the rule for boys is nested in the rule for children. | `Flee.C93_age_false` |
| C94 | moving.py:137-147. `spawning` is not imported, so that matching raises NameError. | `Flee.C94_ethnicity_false` |
| C95 | moving.py:121. `base *= base / timescale`: the sum of the forecast is squared. | `Flee.C95_mean_false` |
| C96 | As C95: the factor is 0 when no flood is expected. | `Flee.C96_no_flood_false` |
| C97 | moving.py:201-276 and docs/Simulation_settings_advanced.md (awareness level). -1 behaves like 1 without looking past markers; 0 is the level without weighting. | `Flee.C97_no_weighting_false` |
| C100 | moving.py:234 and docs/Simulation_settings_advanced.md. `WeightSoftening` is added to the score before dividing by the distance and multiplying with the throttle. | `Flee.C100_constant_false` |
| C101 | moving.py:234 and docs/Simulation_settings_advanced.md. `Softening` is added once to the length of the route. | `Flee.C101_every_link_false` |
| C102 | flee.py:1645-1647 and scoring.py:126-129. The routes of a location are generated in the loop that updates scores, before the scores of later locations. | `Flee.C102_scores_of_the_day_false` |
| C103 | moving.py:493 multiplies with the score, which crawling.py:64-72 has already used; there is no capacity in either. | `Flee.C103_weight_false` |
| C104 | As C103: `getCapMultiplier` is not used with fixed routes. | `Flee.C104_full_false` |
| C105 | crawling.py:143-165 counts markers as steps, moving.py:241-247 does not. | `Flee.C105_destinations_false` |
| C107 | run.py:55 and 86-95. The list of camps is made once; a location that becomes a camp later is not counted, one that ceases to be a camp still is. | `Flee.C107_false` |
| C109 | run.py:112-115. If the refugee count is not positive the row shows 0 for it and for the debt. | `Flee.C109_false` |
| C110 | run.py:112-115. If the refugee count is not positive the error is printed as 0. | `Flee.C110_false` |
| C112 | InputGeography.py:645-648 and flee.py (change of location types). The weights are refreshed by new conflict zones and in `evolve`, not by a change of type to town. | `Flee.C112_false` |
| C115 | DataTable.py:351-363: on day 0 the loop runs over the whole header, including the column of totals (compare C49). | `Flee.C115_false` |
| C116 | DataTable.py:351-363 and spawning.py:248-299. Only `get_daily_difference` writes `day0pops`, and it is only called when spawning follows the data. | `Flee.C116_false` |
| C118 | pflee.py:793-831. Any other `parallel_mode` is accepted; scores are then updated once, by one process each. | `Flee.C118_mode_false` |
| C119 | pflee.py:606-632. `addAgent` raises `numAgentsSpawnedOnRank` but not `numAgents` of the location, unlike the sequential code. | `Flee.C119_new_agent_false` |
| C120 | pflee.py (`updateNumAgents`) counts only links that are in a list; see C02 for closed links. | `Flee.C120_closed_false` |
| C121 | pflee.py:885 uses `random`, which is not imported there. | `Flee.C121_sinks_false` |
| C123 | pflee.py:606-632. `takeFromPopulation` is applied on every process to the location drawn on that process. | `Flee.C123_drawn_false` |
| C124 | pflee.py:606-632 and 840-851. Every process counts every agent, and the counts are then summed over processes. | `Flee.C124_false` |
| C125 | pflee.py:606-632 and 688-702. New agents go to the process given by the total, which drops when agents are removed or not counted. | `Flee.C125_cleared_false`, `Flee.C125_closed_false` |
| C127 | InputGeography.py:511 compares the last cell before blank cells are dropped (513). | `Flee.C127_two_way_false` |
| C129 | crawling.py:103-107. A major route with a closed link makes the program call `sys.exit`; the documentation says that major routes cannot be closed. | `Flee.C129_closed_false` |
| C130 | crawling.py:75. The comparison reads `loc.routes` of the location before the end instead of `source_loc.routes`. So far ends may stay unknown, and a worse major route may replace a better one. | `Flee.C130_stored_false`, `Flee.C130_best_false` |
| C131 | pflee.py:210-236 and 541-582. `numAgents` as seen by decisions changes at exchanges only, so that agents which arrive within the same half of a step do not see each other, not even on the same process; flee.py counts at once. Camps fill up beyond what the sequential program allows. With fixed routes, pflee.py:793-838 updates scores several times before the first routes are generated, and `loc-par` regenerates the routes from other processes' locations only while they are empty, so that these routes go stale; an unknown `parallel_mode` does not update scores at all. | `Flee.C131_capacity_false`, `Flee.C131_mode_false`, `Flee.C131_fixed_false`, `Flee.C131_stale_false` |
| C132 | As C131, where routes cannot go stale on a single process. | `Flee.C132_capacity_false`, `Flee.C132_fixed_false`, `Flee.C132_mode_false` |
| C133 | pflee.py:619-629 asserts `location.pop > 1`; flee.py:1766 takes the last person as well and goes on without people left. | `Flee.C133_last_person_false` |
| C134 | pflee.py:606-650. A new agent raises `numAgentsOnRank`, but `numAgents` is not updated before the end of the next step. | `Flee.C134_new_agents_false` |
| C137 | DataTable.py:186-198 skips headings in the first line only, so that a comment above them makes `int` fail. DataTable.py:89 (`row[0][0]`) fails for a line that begins with an empty cell. | `Flee.C137_lines_false` |
| C138 | handle_refugee_data.py:81-85 stops the program if the last level 1 count is below 1, which depends on the scale factor. | `Flee.C138_corrections_false` |
| C140 | read_period.py:35 fails for an empty line (`row[0]`). | `Flee.C140_empty_line_false` |
| C143 | spawning.py:157 takes the column of the values as weights if a location is called like the attribute. The documentation (spawning.py:91) gives the heading Value, for which line 164 raises KeyError. | `Flee.C143_false` |
| C144 | spawning.py:101 takes the part of the name up to the second underscore: demographics_age_group.csv is stored as `age`, and of two files that begin alike one is lost. Drawing from such a table then raises KeyError unless it has a column `age`. | `Flee.C144_false` |
| C145 | spawning.py:200-201 reads the tables only when a camp is filled; without camps no agent gets attributes. | `Flee.C145_false` |
| C146 | Diagnostics.py:95 uses the name `location`, which is not defined, so that log level > 0 with granularity region stops on the first agent; line 75 reads agents[0] on day 0, which raises IndexError if there is no agent yet (for runs that begin with no agents). | `Flee.C146_region_false`, `Flee.C146_empty_false` |
| C147 | At log level 2, the rows on the way (Diagnostics.py:129-145) have no mark that tells them from the row on the agent. | `Flee.C147_false` |
| C148 | Diagnostics.py:75 writes the attribute names of the first agent into the header only; agents with other attributes, or the same in another order, get their values into the wrong columns. | `Flee.C148_false` |
| C149 | flee.py:256 stores `self.location` before the agent is moved to the end of the link, so the log lists links `L:a:b` instead of locations. | `Flee.C149_false` |
| C150 | Diagnostics.py:231 and 261 go over `links` only, so that closed links are missing from the log; agents without an attribute are in the total and not in the numbers by value. | `Flee.C150_closed_false`, `Flee.C150_attribute_false` |
| C151 | flee.py:262-266 counts each time an agent reaches the end of a link to a camp, so that agents who pass the camp, or come back to it several times a day, are counted each time; agents whom a closed link sends back are not counted. The length of a journey is timesteps_since_departure, which counts all days since the agent was added, also those spent waiting at home. | `Flee.C151_passing_false`, `Flee.C151_back_false`, `Flee.C151_waiting_false` |
| C152 | spawning.py:257 and 284 draw from a Poisson distribution on each process separately, although agents are dealt out to processes by a counter that must be the same everywhere; afterwards the counters differ until the next time step, so agents are created twice or not at all. | `Flee.C152_false` |
| C154 | As C120: pflee.py:524-590 does not count closed links, so that the printed total falls when a border is closed. New agents are dealt out to processes by this number. | `Flee.C154_false` |
| C157 | run_par.py:65 appends to `output` before any line sets it, so that the log level idp_totals stops the program with NameError; run.py:64 appends to `output_header_string`. | `Flee.C157_false` |
| C158 | pflee.py's evolve does not refresh the spawn weights, whereas flee.py's does. close_camp and open_camp set the conflict of a location to -1 and do not refresh either, so that a conflict zone which the schedule of closures treats as a camp still sends new agents on the next day in the parallel program. Totals differ as in C154. | `Flee.C158_false`, `Flee.C158_weights_false` |
| C159 | between_date takes the absolute value, so that an event before the start gets a day after it (acled2locations.py:109). date_format adds 2000 to years below 50 but nothing to 50 to 99 (lines 93-96), so that an event of 1999 written with two digits is taken to be of the year 99. | `Flee.C159_false` |
| C161 | As C159: days before the start count as days after it, so that the nearest event is taken instead of the first. | `Flee.C161_false` |
| C162 | acled2locations.py:193 drops all rows of a region but the first before the filter is applied, and line 141 does not use the sorted table. The filter has no effect. | `Flee.C162_false` |
| C163 | acled2locations.py:175 keeps the column admin1 only, so that df.admin2 and df.location do not exist; the bare except at line 201 reports a wrong filter. admin3 is treated as admin2. The documentation gives location as its example. | `Flee.C163_false` |
| C165 | acled2locations.py:142 calls DataFrame.append, removed in pandas 2.0; requirements.txt does not limit the version, and the bare except at line 201 reports a wrong filter. | `Flee.C165_false` |
| C166 | plot_flee_output.py:243 looks for ' sim' anywhere in the name of a column, so that a camp such as 'al simsim' is found in its three columns and counted three times. | `Flee.C166_false` |
| C167 | plot_flee_output.py:327 stores the rescaled numbers in an array of int64, which cuts off the fractions; the array in extract-validation-results.py:126 is of floats. | `Flee.C167_false` |
| C168 | plot_flee_compare.py:76 calls abs_diff with rescaled=False for the rescaled error as well. | `Flee.C168_false` |
| C169 | run.py:113 divides by the number of all refugees in the data, the programs divide by the number in camps, and at least by 1. On days without refugees in the data run.py:115 prints 0 while the programs count all people in camps. | `Flee.C169_false` |
| C170 | plot_flee_output.py:128 takes the first word of a column for the name of the camp: names such as 'Bobo Dioulasso' give a KeyError. The column 'total IDPs' is not dropped (lines 108-118) and gives a KeyError. A figure is made three times for each camp. | `Flee.C170_false` |
| C171 | get_error divides by the sum of the numbers of observations without a check (StoreDiagnostics.py:64). | `Flee.C171_false` |
| C172 | The documentation of calculate_ln_accuracy_ratio promises -1; the function has no such case (analysis.py:101) and gives inf or nan. | `Flee.C172_false` |
| C173 | extract-validation-results.py:145 and 153 multiply the value of the day by the number of the day instead of dividing by 7 or 30; line 152 tests the value of day 7 in place of day 30. | `Flee.C173_false` |
| C174 | The value of day 30 is read without a check of the length (extract-validation-results.py:139). | `Flee.C174_false` |
| C175 | waitForInputFiles (coupling.py:488-494) has no limit of time and does not look whether the other processes are still there. | `Flee.C175_waits_false` |
| C176 | The files of the other model are awaited, those of the own model are not (coupling.py:467-496), so that two instances of one model can be two days apart. | `Flee.C176_two_days_false` |
| C177 | waitForInputFiles ends when the files exist (coupling.py:492), which is so as soon as they are opened (461), before anything is in them. | `Flee.C177_half_file_false` |
| C178 | coupling.py:461 opens for appending and 492 finds old files. run_file_coupling.sh:83 removes them before the start; coupling.py and run_mscale.py do not. | `Flee.C178_old_file_false` |
| C180 | The documentation of X1_X2 (pmicro_flee.py:417-422) says greater than or equal to X2; line 540 tests <= X2, and line 543 asks for more than 15 in addition. | `Flee.C180_equal_false`, `Flee.C180_fifteen_false` |
| C182 | pmicro_flee.py:444-447 fixes the latitude before 449-454 looks at the longitude. | `Flee.C182_latitude_first_false` |
| C183 | pmicro_flee.py:182-188 gives the second link no link_type. Moreover get_distance of these links needs the argument time (line 509), but all callers (flee.py:232, moving.py:234 and others) call get_distance(): with weather coupling every simulation ends by a TypeError as soon as an agent looks at a link. | `Flee.C183_crossing_false` |
| C185 | precipitation.py:206 returns 1000, pmicro_flee.py:544 and 547 use 10000 or 2. | `Flee.C185_multiplier_false` |
| C187 | coupling.py:151 looks up the location by its name and takes the last one. | `Flee.C187_names_false` |
| C189 | Nothing compares the two files of conflicts; the micro model raises a KeyError at coupling.py:355. (run_mscale.py cannot reach this point in the present state of the repository: it calls ReadFlareConflictInputCSV (line 366), pick_conflict_location and refresh_conflict_weights, which do not exist.) | `Flee.C189_setup_false` |
| C190 | coupling.py:585 opens the file for appending and writes the names again. | `Flee.C190_append_false` |
| C191 | coupling.py:680-684 computes the means and does not use them; line 686 writes df, the table of the last instance. | `Flee.C191_mean_false` |
| C192 | micro_InputGeography.py:109-131 has the columns of an older layout, with the population in the second place, and does not set foreign. | `Flee.C192_layout_false` |
| C193 | run_mscale.py:30 and micro_InputGeography.py:59 look at the first cell of a line without testing that there is one, unlike InputGeography.py:179. | `Flee.C193_empty_false` |
| C194 | flee.py:1828 compares the names in the list with the name of the place of an agent, which may be a road; the name of a road is made from the names of its ends (flee.py:659). | `Flee.C194_labels_false` |
| C203 | _version.py:193 takes any name with a digit where there is no tag, including branches; for the commit checked out on the branch release-2 the version is 'HEAD -> release-2'. Also the first tag in the order of a dictionary is taken, not the newest: 10.0 comes before 9.0. | `Flee.C203_false` |
| C204 | setup.cfg has no parentdir_prefix, and the template wrote the text None into _version.py:45. The package looks for a directory whose name begins with None, while versioneer.py:1462 skips this source. | `Flee.C204_false` |
| C205 | A town whose only road leads to a marker without another road: moving.py finds no route, and flee.py:130-158 takes the length of None (TypeError). With awareness level 0 or pruning of routes, a location without open links raises ValueError. | `Flee.C205_marker_false`, `Flee.C205_random_false`, `Flee.C205_pruning_false`, `Flee.C205_false` |
| C206 | flee.py:232 compares with >: an agent that travels exactly the length of the link in a day is still on the link at the end of the day, and arrives on the next. | `Flee.C206_equal_false` |
| C208 | handle_refugee_data.py:111-114 looks at the first row on or after the last day before it stops, so that a count after the period can be the result. | `Flee.C208_peak_false` |
| C209 | If all other places are full, all routes get the same weight (moving.py:294-299, normalizeWeights) and agents go to places that count nothing. Agents that look two links ahead go through places that count nothing, because only the end of a route is weighed. | `Flee.C209_full_false`, `Flee.C209_through_false`, `Flee.C209_false` |
| C212 | Attributes of the file of locations are text (InputGeography.py:478); flee.py:1686 (and pflee.py:890) compares a random number with it, which raises TypeError as soon as an agent is in such a camp. The documented way to make camps sinks (docs/Simulation_settings_advanced.md:87) therefore does not work; the test sets the attribute as a number by `setAttribute`. | `Flee.C212_false` |
| C213 | `spawn_daily_displaced` (spawning.py:306-309) takes the number of people that the data show on day 0 off the capacity of each location, while `add_initial_refugees` (spawning.py:207-213) inserts the same people as agents that count as occupants. A camp with 5 places and 3 people turns everybody away. If the count reaches the number of places, the capacity becomes 0 or negative and the camp has no limit (`C213_never`). docs/Simulation_instance_construction.md:54 says that the default capacity 0 is not unlimited, but it is (`C213_no_places`). | `Flee.C213_false` |
| C214 | The rule compares the index of recent travel (flee.py:271-282), in which all earlier days count by halves, while the documentation speaks of the last two days: an agent can rest after 108 + 180 km in two days with a day's distance of 360 km (`C214_false`). | `Flee.C214_false` |
| C220 | DataTable.py:285-303. `override_input` says that the totals of the data are not used as input any more, but the lines that used the separate file are commented out (339-341). The file is one more column, so that its arrivals come on top of those in the camps. | `Flee.C220_override_false` |
| C224 | The decay of spawn weights comes one day late: the weights used on a day were computed in `evolve` on the day before (flee.py:1642, run.py:75-77 refreshes after spawning), unless a conflict zone is added or removed on the day. With the documented list and interval the weight is halved 91, not 90 days after the conflict began (docs/Simulation_settings_advanced.md:93); the start of a conflict elsewhere makes it come on time. For the same reason a conflict zone that location_changes.csv turns into a town or camp still has its weight for that day, so agents appear in it. | `Flee.C224_false` |
| C225 | Undocumented keys decide runs: `camps_are_sicks` (a misspelling of the documented key, SimulationSettings.py:146), `use_v1_rules`, `pruning_threshold`, `ChildrenAvoidHazards`, `BoysTakeRisk` and the three `Match…Ethnicity`. The documented keys `camps_are_sinks`, `max_crossing_speed` and `max_flood_level` never have an influence on a run. | `Flee.C225_false` |
| C226 | A settings file written as on the page on floods makes the program exit: the page does not turn off `conflict_zone_spawning_only`, which is on by default and excludes `flood_zone_spawning_only` (SimulationSettings.py:136-143). With that line added, the tables are still not found, because they are read from a section `flood_rules` that the page does not mention (298), and the first agent in a place under water makes the program fail. The key `flood_spawn_mode` of the page is not read; the code reads `spawn_mode` (193). | `Flee.C226_false` |
| C227 | An agent that spends a night on its way keeps its plan (flee.py:187). The next day it can go on by another route than an agent that sets out from there for the same destination, since a route is the best one within the awareness level of the place where it was planned. | `Flee.C227_false` |
| C228 | In the style `pep440-post` a commit without a tag is described as `0.postDISTANCE[.dev0]` (flee/_version.py:364), but `+gHEX` is added to it (line 379). | `Flee.C228_false` |
| C229 | With fixed routes the power applies to the score per distance, and the result is multiplied by the score of the destination (moving.py:493). A far camp that is the best choice without a power can become the worse one with a larger power. | `Flee.C229_false` |
| C230 | What is scaled with is the larger one of population and capacity (moving.py:346). A place with fewer people but a larger capacity has the higher chance. | `Flee.C230_false` |
| C231 | Values are converted with `bool(…)` (SimulationSettings.py:131-150), so that every text but the empty one, also `"False"` and `"no"` in quotation marks, turns the setting on. | `Flee.C231_false` |
| C234 | compare_out.py has the names of ten camps written into it: output that lacks one of them is never compared, it stops with a missing column (`C234_needs`, `C234_false`). | `Flee.C234_false` |
| C235 | coupling.py:917 loads a log with one row (a run of one day) or with one column (no location sends agents) as a plain list, and the next lines raise an IndexError (`C235_short`, `C235_silent`, `C235_false`). A location that is coupled twice has two columns but one heading, so that the next location is drawn with its numbers (`C235_twice_false`). | `Flee.C235_false`, `Flee.C235_twice_false` |
| C236 | Differences are rounded to four digits before they are added and divided, so that a third becomes 0.33334 (`C236_false`). | `Flee.C236_false` |
| C237 | The mean need not lie within the band: of eleven runs ten leave a camp empty and one brings eleven people, then the mean is 1 and the band is 0 (`C237_false`). | `Flee.C237_false` |
| C238 | If the name of the region occurs in the path of a run but not in its folder, for instance because all runs lie below a folder with that name, `index` raises a ValueError and nothing is drawn (`C238_false`). | `Flee.C238_false` |
| C239 | The program averages the runs before it compares them with the data. Errors in opposite directions cancel, so that an ensemble can be reported without any error though all its runs are wrong (`C239_false`). | `Flee.C239_false` |
| C240 | The program takes the first word of a heading for the name of a camp. If it is no camp, the program ends with a KeyError (`C240_false`, `C240_space`); if it is, the camp with the longer name is left out without a message (`C240_words`). It also assumes that six columns follow those of the camps; with numbers of displaced people there are seven, and it ends with a KeyError (`C240_idps`). | `Flee.C240_false` |
| C241 | Locations are kept by their names and colours by their rows. If a name occurs twice, all later colours are those of other locations (`C241_false`, `C241_short`). | `Flee.C241_false` |
| C242 | The simulation looks for `camp` or `town` inside a type, the map compares whole types: `refugee_camp` is a camp of the simulation but black in the map (`C242_false`). | `Flee.C242_false` |
| C244 | Names and values are written without quotation marks (Diagnostics.py:99-115), so that a comma in the name of a place moves all later cells of its lines (`C244_false`). The order of attributes is the subject of C148. | `Flee.C244_false` |

