{"id": "C01", "title": "Agent counters equal the agents actually present", "statement": "At every point of a simulation, the numAgents counter of each location equals the number of agents located there plus the number of agents deactivated there, and the numAgents counter of each link object equals the number of agents travelling on that object. In particular no counter is ever negative.", "quantifier": "every network, every sequence of API calls (adding locations, links and agents, evolving, closing and reopening links, locations and borders, conflict and camp changes), every random outcome", "why_tests_cant": "counters are incremented and decremented at many call sites under random branching; tests only look at a few final totals", "anchors": ["flee/flee.py:Person.__init__", "flee/flee.py:Person.handle_travel", "flee/flee.py:Ecosystem.evolve", "flee/flee.py:Ecosystem._remove_link_1way", "flee/flee.py:Ecosystem.addAgent"]}
{"id": "C02", "title": "Visible totals account for every agent", "statement": "The sum of numAgents over all locations, all open links and all closed links reachable from the ecosystem equals Ecosystem.numAgents() at every point of a simulation.", "quantifier": "every history of API calls including closures while agents travel, every random outcome", "why_tests_cant": "only histories that close a link while someone is on it exercise the orphaned-link copy; no test sums over links after such a closure", "anchors": ["flee/flee.py:Ecosystem._remove_link_1way", "flee/flee.py:Ecosystem.numAgents"]}
{"id": "C03", "title": "A time step never creates or loses agents", "statement": "Ecosystem.evolve() leaves Ecosystem.numAgents() unchanged, keeps the order and the attributes of the agents, and advances time by exactly one.", "quantifier": "every reachable simulation state, every random outcome", "why_tests_cant": "tests check particular runs; the claim is about all runs and all random draws", "anchors": ["flee/flee.py:Ecosystem.evolve", "flee/flee.py:Person.evolve", "flee/flee.py:Person.finish_travel"]}
{"id": "C04", "title": "The travelling flag tells links from locations", "statement": "After every API call an agent's travelling flag is true exactly when the agent is on a link; an agent that is not travelling has zero distance travelled on its current link.", "quantifier": "every reachable state, every agent, every random outcome", "why_tests_cant": "an invariant of all histories; type confusion between Location and Link would only crash in rare branches", "anchors": ["flee/flee.py:Person.handle_travel", "flee/flee.py:Person.finish_travel"]}
{"id": "C05", "title": "Link usage statistics never run backwards", "statement": "The cumulative agent counter of a link object never decreases, grows by exactly one when an agent enters it, and is always at least the number of agents currently on it.", "quantifier": "every history of API calls and every random outcome, every link object", "why_tests_cant": "quantifies over histories, including closing and reopening, where the counter is copied to a new object", "anchors": ["flee/flee.py:Link.IncrementNumAgents", "flee/flee.py:Ecosystem._remove_link_1way"]}
{"id": "C06", "title": "No agent travels further than the configured daily maximum", "statement": "In one time step no agent covers more than MaxMoveSpeed kilometres (documented as the most kilometres agents traverse per time step). What the code guarantees instead is strictly less than twice the largest applicable speed.", "quantifier": "every network, every agent position, every random outcome", "why_tests_cant": "needs a supremum over all multi-hop days; tests only use single networks", "anchors": ["flee/flee.py:Person.finish_travel", "docs/Simulation_settings_basic.md"]}
{"id": "C07", "title": "Distance accounting is exact", "statement": "During a time step the distance recorded for an agent equals the kilometres it advanced: the sum over links completed of the remaining length of that link, plus the advance on the link it ends on. After the step a travelling agent has covered between 0 and the full length of its link.", "quantifier": "every reachable state, every agent, every random outcome, all positive speeds and non-negative link lengths", "why_tests_cant": "depends on the history of partial link traversals over arbitrarily many steps", "anchors": ["flee/flee.py:Person.finish_travel"]}
{"id": "C08", "title": "A time step always finishes", "statement": "Ecosystem.evolve() terminates.", "quantifier": "every network and every random outcome", "why_tests_cant": "non-termination shows only on particular networks (zero-length links) and random outcomes", "anchors": ["flee/flee.py:Person.finish_travel"]}
{"id": "C09", "title": "Agents only move along existing links", "statement": "Whenever an agent's position changes in a time step it either enters a link that is open and starts at its location, or goes from a link to that link's endpoint, or returns from a closed link to that link's start point.", "quantifier": "every reachable state, every random outcome", "why_tests_cant": "a safety property of all transitions", "anchors": ["flee/flee.py:Person.take_next_step", "flee/flee.py:Person.finish_travel"]}
{"id": "C10", "title": "Closing a link sends travellers back", "statement": "An agent that is on a link when that link is closed never arrives at the link's endpoint through it: when its traversal completes it is put back at the start point, and it does not move again in that time step.", "quantifier": "every network, every closure time, every progress of the agent on the link, every random outcome", "why_tests_cant": "needs all interleavings of closures and traversal progress", "anchors": ["flee/flee.py:Person.finish_travel", "flee/flee.py:Ecosystem._remove_link_1way"]}
{"id": "C11", "title": "Agents do not set out for a full camp", "statement": "When an agent departs from a location, the final destination of its route is not a camp at or beyond the fullness threshold (capacity multiplier below one half) at that moment.", "quantifier": "every reachable state, every random outcome, every capacity setting", "why_tests_cant": "depends on occupancy at the moment of each departure inside the agent loop", "anchors": ["flee/flee.py:Person.check_dest_is_full_camp", "flee/flee.py:Person.take_next_step"]}
{"id": "C12", "title": "Move chance governs departures", "statement": "An agent at a location whose effective move chance is zero or negative never departs from it; with move chance at least one and a viable route that is not blocked it always departs.", "quantifier": "every state and every random draw in [0,1)", "why_tests_cant": "probability-zero and probability-one claims need all draws", "anchors": ["flee/flee.py:Person.evolve", "flee/moving.py:calculateMoveChance"]}
{"id": "C13", "title": "Deactivated agents stay put and stay counted", "statement": "Once an agent is deactivated in a camp it never moves or changes location again, it keeps counting towards Ecosystem.numAgents(), and the camp's numAgents keeps including it.", "quantifier": "every later history of evolve calls, every random outcome", "why_tests_cant": "an 'always afterwards' property over unbounded histories", "anchors": ["flee/flee.py:Ecosystem.evolve", "docs/Simulation_settings_advanced.md"]}
{"id": "C14", "title": "Recent travel index stays in its documented range", "statement": "An agent's recent travel index is documented to lie in the range 0.0-1.0 at all times.", "quantifier": "every history and every random outcome", "why_tests_cant": "an invariant over unbounded histories; violating runs need several multi-hop days in a row", "anchors": ["flee/flee.py:Person.__init__", "flee/flee.py:Ecosystem.evolve"]}
{"id": "C15", "title": "Capacity multiplier is a proper throttle", "statement": "The capacity multiplier is always between 0 and 1, is 1 up to the buffer threshold and for locations without a capacity, is 0 from full capacity on, is non-increasing in occupancy, and its internal assertions never fire.", "quantifier": "all capacities, occupancies, scalings and buffers in [0,1]", "why_tests_cant": "a continuum of parameter values including the boundaries", "anchors": ["flee/moving.py:getCapMultiplier"]}
{"id": "C16", "title": "Route weights become a probability distribution", "statement": "For every non-empty list of non-negative weights normalisation yields non-negative numbers of the same length summing to 1, preserving ratios when the sum is positive and uniform otherwise.", "quantifier": "all non-empty lists of non-negative weights", "why_tests_cant": "all list lengths and values", "anchors": ["flee/moving.py:normalizeWeights"]}
{"id": "C17", "title": "Chosen routes come from the candidates and never have zero weight when avoidable", "statement": "The chosen route is one of the candidate routes for every random draw; if some candidate has positive weight, a candidate with weight zero is never chosen; each candidate is chosen for draws in an interval whose length is its share of the total weight.", "quantifier": "all candidate lists with non-negative weights, all draws in [0,1)", "why_tests_cant": "needs all draws; a statistical test cannot rule out rare wrong picks", "anchors": ["flee/moving.py:chooseFromWeights"]}
{"id": "C18", "title": "Candidate routes are walks in the open network", "statement": "Every candidate route generated for an agent starts at the agent's location, follows open links of consecutive locations to its end, has as many routes as weights, and never ends at a marker.", "quantifier": "all networks, all start locations, all awareness levels", "why_tests_cant": "route generation is recursive over arbitrary graphs", "anchors": ["flee/moving.py:calculateLinkWeight", "flee/moving.py:selectRoute"]}
{"id": "C19", "title": "Candidate routes do not loop", "statement": "No candidate route visits the same location twice (the code documents that loops are avoided).", "quantifier": "all networks, all awareness levels", "why_tests_cant": "depends on graph structure, in particular links from a location to itself", "anchors": ["flee/moving.py:calculateLinkWeight"]}
{"id": "C20", "title": "Awareness level bounds the search exactly", "statement": "For a positive awareness level the candidate routes are exactly the loop-free open walks from the agent's location that end at a non-marker location and contain at most awareness-level many non-marker stops: nothing within that horizon is missed and nothing beyond it is included.", "quantifier": "all networks without self-links, all positive awareness levels", "why_tests_cant": "completeness and soundness of a recursive search over arbitrary graphs", "anchors": ["flee/moving.py:calculateLinkWeight", "docs/Simulation_settings_basic.md"]}
{"id": "C21", "title": "Route generation terminates", "statement": "Generating candidate routes terminates on every network, even though marker locations do not consume awareness steps.", "quantifier": "all networks including cycles of markers, all awareness levels", "why_tests_cant": "termination over arbitrary cyclic graphs", "anchors": ["flee/moving.py:calculateLinkWeight"]}
{"id": "C22", "title": "Pruning keeps the best and drops exactly the poor routes", "statement": "With a pruning threshold of at least 1.001 pruning keeps exactly the candidates whose weight is at least the maximum weight divided by the threshold, in order, and keeps each weight paired with its own route; otherwise it changes nothing.", "quantifier": "all candidate lists and thresholds", "why_tests_cant": "in-place removal by value during iteration misbehaves only for particular duplicate patterns", "anchors": ["flee/moving.py:pruneRoutes"]}
{"id": "C23", "title": "Awareness level 0 lets agents travel", "statement": "With awareness level 0 (documented as road-only awareness) agents still move between locations.", "quantifier": "all networks, all random outcomes", "why_tests_cant": "a liveness failure: the claim is that no run ever moves an agent", "anchors": ["flee/moving.py:selectRoute", "flee/flee.py:Person.take_next_step"]}
{"id": "C24", "title": "Nearer and better destinations weigh more", "statement": "With default powers, the weight of a candidate route is non-negative, strictly decreases in its total length and increases in the score of its destination, other things being equal.", "quantifier": "all scores, distances, softenings (non-negative, total distance positive) and capacity states", "why_tests_cant": "a continuum of real parameters", "anchors": ["flee/moving.py:calculateLinkWeight"]}
{"id": "C25", "title": "Fixed routes are followable", "statement": "Every route stored by location-based route generation for regular links starts at a neighbour of the location, follows open links and ends at its destination; routes stored for major routes are also complete walks from the location.", "quantifier": "all networks and major route tables", "why_tests_cant": "recursive generation over arbitrary graphs; dropped waypoints show only for multi-hop major routes", "anchors": ["flee/crawling.py:calculateLocCrawlLinkWeight", "flee/crawling.py:_addLocationRoute", "flee/crawling.py:_addMajorRouteToLocation"]}
{"id": "C26", "title": "Location score composition", "statement": "A location's attractiveness is positive when all weights are positive, equals the product of the foreign, camp and conflict factors that apply, and a longer lasting conflict never makes a conflict zone more attractive (documented: well established conflicts are less attractive).", "quantifier": "all locations, settings and times", "why_tests_cant": "a continuum of parameters and all decay tables", "anchors": ["flee/scoring.py:updateLocationScore", "flee/SimulationSettings.py:get_location_conflict_decay"]}
{"id": "C27", "title": "Linking is symmetric", "statement": "linkUp adds exactly one link in each direction between the two named locations with the same distance, changes nothing else, and forces redirection only in the named direction; unknown names stop the program and change nothing.", "quantifier": "every network with distinct location names and every pair of names", "why_tests_cant": "arbitrary networks and names", "anchors": ["flee/flee.py:Ecosystem.linkUp"]}
{"id": "C28", "title": "Closing then reopening a link restores the connection", "statement": "close_link followed by reopen_link with the same arguments restores the set of open connections and distances of the network, and no other connection changes in between.", "quantifier": "every network, every pair of names, every occupancy", "why_tests_cant": "depends on object identity of names, duplicates and order", "anchors": ["flee/flee.py:Ecosystem.close_link", "flee/flee.py:Ecosystem.reopen_link"]}
{"id": "C29", "title": "Two-way removal removes both directions", "statement": "remove_link(A, B, twoway=True) removes the links from A to B and also from B to A.", "quantifier": "every network and pair of locations", "why_tests_cant": "tests use the same call and only check a changed total", "anchors": ["flee/flee.py:Ecosystem.remove_link", "flee/flee.py:Ecosystem.close_link", "flee/flee.py:Ecosystem.reopen_link"]}
{"id": "C30", "title": "Link operations work for equal names", "statement": "Closing, removing or reopening a link identified by names equal to the location names has effect, no matter where the strings come from (for example a closures file).", "quantifier": "every network and every way the name strings were created", "why_tests_cant": "literal strings in one test module are shared objects, so tests never see distinct but equal strings", "anchors": ["flee/flee.py:Ecosystem._remove_link_1way", "flee/flee.py:Ecosystem._reopen_link_1way", "flee/flee.py:Ecosystem.enact_border_closures"]}
{"id": "C31", "title": "A closed location is isolated", "statement": "After close_location no open link leaves the location and no open link of any location that the location linked to leads into it; links not touching the location are unchanged.", "quantifier": "every network with distinct names, every location", "why_tests_cant": "the closing loop mutates the list it iterates over; depends on degree and multiplicity", "anchors": ["flee/flee.py:Ecosystem.close_location", "flee/flee.py:Ecosystem._change_location_1way"]}
{"id": "C32", "title": "Reopening a location undoes closing it", "statement": "close_location followed by reopen_location restores exactly the open connections that existed before.", "quantifier": "every network with distinct names and initially no closed links, every location", "why_tests_cant": "loop over a list being mutated; only some directions terminate", "anchors": ["flee/flee.py:Ecosystem.reopen_location", "flee/flee.py:Ecosystem._change_location_1way"]}
{"id": "C33", "title": "Location closure operations terminate", "statement": "close_location and reopen_location terminate for both values of twoway.", "quantifier": "every network and location", "why_tests_cant": "non-termination needs particular argument combinations never exercised by tests", "anchors": ["flee/flee.py:Ecosystem._change_location_1way"]}
{"id": "C34", "title": "Border closure closes exactly the border", "statement": "After close_border(X, Y) no open link leads from X to Y (nor from Y to X when two-way), and every other open link is unchanged; reopen_border afterwards restores the open connections.", "quantifier": "every network with distinct names, every pair of countries", "why_tests_cant": "loops over lists being mutated on arbitrary networks", "anchors": ["flee/flee.py:Ecosystem.close_border", "flee/flee.py:Ecosystem.reopen_border", "flee/flee.py:Ecosystem._change_border_1way"]}
{"id": "C35", "title": "Closure schedule", "statement": "A border closure listed with start s and end e (s < e) keeps the border closed exactly at the times t with s <= t < e when closures are enacted once per time step, starting from an open border and with no other closures.", "quantifier": "all networks, all start and end days, all simulation lengths", "why_tests_cant": "quantifies over all schedules and days", "anchors": ["flee/flee.py:Ecosystem.enact_border_closures"]}
{"id": "C36", "title": "Operations on unknown locations have no effect", "statement": "Closing a camp, opening a camp, changing the type of a location or removing a link for a name that does not exist changes no location.", "quantifier": "every network and every unknown name", "why_tests_cant": "silent fallback to another location is only visible if that location is inspected", "anchors": ["flee/flee.py:Ecosystem._convert_location_name_to_index", "flee/flee.py:Ecosystem.close_camp", "flee/flee.py:Ecosystem.change_location_type"]}
{"id": "C37", "title": "Location kinds are exclusive", "statement": "A location is never classified as two different kinds (camp, conflict zone, town, forwarding hub, marker, flood zone) at once, after creation and after any sequence of camp, conflict and type changes.", "quantifier": "all location types, move chances and sequences of changes", "why_tests_cant": "invariant over all sequences of changes", "anchors": ["flee/flee.py:Location.__init__", "flee/flee.py:Location.open_camp", "flee/flee.py:Ecosystem.add_conflict_zone", "flee/flee.py:Ecosystem.remove_conflict_zone", "flee/flee.py:Ecosystem.change_location_type"]}
{"id": "C38", "title": "Changing a location type takes effect", "statement": "change_location_type gives the named location exactly the flags and move chance of the requested type for every supported type.", "quantifier": "all locations, all supported types", "why_tests_cant": "one of the branches refers to a missing attribute and is never run by tests", "anchors": ["flee/flee.py:Ecosystem.change_location_type"]}
{"id": "C39", "title": "Conflict zones can be set and removed", "statement": "After set_conflict_intensity(name, x) the named location has conflict intensity x and the conflict move chance if x >= 0.000001, and is a conflict-free town otherwise; all other locations are unchanged.", "quantifier": "all networks with distinct names, all intensities", "why_tests_cant": "continuum of intensities with a threshold, arbitrary networks", "anchors": ["flee/flee.py:Ecosystem.set_conflict_intensity", "flee/flee.py:Ecosystem.add_conflict_zone", "flee/flee.py:Ecosystem.remove_conflict_zone"]}
{"id": "C40", "title": "Conflict schedule is followed", "statement": "When the conflict input table is applied at every time step from 0 on, after step t each listed location's conflict intensity equals the table entry for t (no conflict if the entry is zero).", "quantifier": "all tables with non-negative entries, all days", "why_tests_cant": "depends on whole histories of daily values, in particular changes between two positive intensities", "anchors": ["flee/InputGeography.py:InputGeography.AddNewConflictZones"]}
{"id": "C41", "title": "Opening and closing camps", "statement": "Opening a camp then closing it leaves a plain town with the default move chance; closing then opening leaves a camp; IDP status is what the last operation said.", "quantifier": "all locations and all sequences of operations", "why_tests_cant": "state machine over all sequences", "anchors": ["flee/flee.py:Location.open_camp", "flee/flee.py:Location.close_camp"]}
{"id": "C42", "title": "Spawn weights cover exactly the right locations", "statement": "Spawn weights are non-negative, zero for every location without conflict, proportional to population times conflict intensity (times decay when set), and sum to the total; with conflict-driven spawning they are all zero.", "quantifier": "all networks, populations, intensities, decay tables and times", "why_tests_cant": "arbitrary networks and settings", "anchors": ["flee/spawning.py:refresh_spawn_weights"]}
{"id": "C43", "title": "Agents spawn only where the weight is positive", "statement": "Every spawn location drawn has positive spawn weight, and drawing fails exactly when the total weight is zero.", "quantifier": "all weight vectors and all draws in [0,1)", "why_tests_cant": "needs all draws", "anchors": ["flee/flee.py:Ecosystem.pick_spawn_locations"]}
{"id": "C44", "title": "Spawning follows the data without drift", "statement": "With data-driven spawning, after any number of days the number of agents spawned minus the outstanding debt equals the sum of daily changes in the data (day 0 excluded when day-zero agents are pre-placed), and the debt is never negative.", "quantifier": "all sequences of daily changes, positive or negative", "why_tests_cant": "an invariant over all sequences of increases and decreases", "anchors": ["flee/spawning.py:spawn_daily_displaced"]}
{"id": "C45", "title": "Population is conserved when spawning takes from it", "statement": "With take_from_population, for each location remaining population plus spawned agents never changes as long as population was available, and population never drops below zero.", "quantifier": "all sequences of spawns", "why_tests_cant": "invariant over all sequences, including exhausting the population", "anchors": ["flee/flee.py:Ecosystem.addAgent"]}
{"id": "C46", "title": "Conflict-driven spawning counts", "statement": "With conflict-driven spawning in constant or population-ratio mode, the number of agents added at each location is the documented rate truncated to an integer, zero without conflict, and the returned count is the sum of the agents added.", "quantifier": "all networks, intensities and rates", "why_tests_cant": "arbitrary networks; loop-carried variables", "anchors": ["flee/spawning.py:spawn_daily_displaced"]}
{"id": "C47", "title": "Conflict decay table lookup is always in range", "statement": "The decay factor returned is always an element of the configured list (or 1 when none is set), the first element for the first interval, the last element for ever after the list is exhausted, and the lookup never fails for non-negative elapsed time.", "quantifier": "all decay lists, intervals and elapsed times", "why_tests_cant": "all times, including far beyond the end of the list and negative ones", "anchors": ["flee/SimulationSettings.py:get_conflict_decay"]}
{"id": "C48", "title": "Interpolated data is exact at data points and bounded in between", "statement": "Interpolated counts equal the (truncated) data value on each data day, lie between the neighbouring data values in between, equal the first value before the data starts and the last value after it ends.", "quantifier": "all data columns with strictly increasing days, all query days", "why_tests_cant": "all tables and all days", "anchors": ["flee/datamanager/DataTable.py:DataTable.get_interpolated_data"]}
{"id": "C49", "title": "Daily differences add up", "statement": "The daily differences for days 0..n sum to the interpolated total on day n.", "quantifier": "all tables, all n", "why_tests_cant": "telescoping over all prefixes; day 0 is special-cased", "anchors": ["flee/datamanager/DataTable.py:DataTable.get_daily_difference"]}
{"id": "C50", "title": "Retrofitted refugee totals", "statement": "The level-1 registration correction scales all entries before the correction day by one constant factor so that the curve is continuous there, leaves later entries unchanged and keeps order between entries; negative days mean no correction.", "quantifier": "all tables and correction days", "why_tests_cant": "all tables; failure when no row matches", "anchors": ["flee/datamanager/DataTable.py:DataTable.correctLevel1Registrations", "flee/datamanager/handle_refugee_data.py"]}
{"id": "C51", "title": "Adding data tables adds the counts", "statement": "Adding two refugee count tables yields, on each day of the first table, the sum of the first count and the second count interpolated on that day.", "quantifier": "all pairs of tables with increasing days", "why_tests_cant": "merge loops over arbitrary interleavings of days", "anchors": ["flee/datamanager/DataTable.py:DataTable/AddCSVTables"]}
{"id": "C52", "title": "Each link row creates one connection", "statement": "Storing the input geography creates exactly one pair of links for every row of the link table, whatever its redirection flag.", "quantifier": "all link tables with values 0, 1, 2 for the flag", "why_tests_cant": "arbitrary tables; the flag value 1 takes two branches", "anchors": ["flee/InputGeography.py:InputGeography.StoreInputGeographyInEcosystem"]}
{"id": "C53", "title": "Comment and header lines are ignored in every input file", "statement": "Lines starting with # never become locations, links, closures, agents or major routes.", "quantifier": "all CSV inputs", "why_tests_cant": "arbitrary file contents", "anchors": ["flee/InputGeography.py:InputGeography.ReadLinksFromCSV", "flee/InputGeography.py:InputGeography._ReadMajorLinksFromCSV", "flee/InputGeography.py:InputGeography.ReadClosuresFromCSV"]}
{"id": "C54", "title": "Every agent row becomes one agent", "statement": "Reading agents from a file adds exactly one agent per data row, at the named location, with the attribute values of its row.", "quantifier": "all agent files whose locations exist", "why_tests_cant": "loop variable reuse makes it fail depending on the number of locations and rows", "anchors": ["flee/InputGeography.py:InputGeography.ReadAgentsFromCSV"]}
{"id": "C55", "title": "Conflict names come from the location type", "statement": "The list of conflict location names contains exactly the locations whose type in the input is conflict.", "quantifier": "all location tables", "why_tests_cant": "arbitrary tables; column offset", "anchors": ["flee/InputGeography.py:InputGeography.getConflictLocationNames", "flee/InputGeography.py:InputGeography.ReadLocationsFromCSV"]}
{"id": "C56", "title": "Foreign classification", "statement": "A stored location is marked foreign exactly when its country differs from the country of the first location in the table.", "quantifier": "all location tables", "why_tests_cant": "arbitrary tables", "anchors": ["flee/InputGeography.py:InputGeography.StoreInputGeographyInEcosystem"]}
{"id": "C57", "title": "Parallel agent placement is balanced and complete", "statement": "When n agents are added on k processes, every agent lives on exactly one process and the numbers on any two processes differ by at most one.", "quantifier": "all n and all k >= 1", "why_tests_cant": "all process counts and totals", "anchors": ["flee/pflee.py:Ecosystem.addAgent", "flee/pflee.py:Ecosystem.insertAgent"]}
{"id": "C58", "title": "Parallel counters agree with the sum over processes", "statement": "After agent numbers are synchronised, every process sees for every location and link the sum of the per-process numbers, and the buffered mode gives the same result as the unbuffered mode.", "quantifier": "all networks, all process counts, all per-process numbers", "why_tests_cant": "packing and unpacking offsets over arbitrary networks", "anchors": ["flee/pflee.py:Ecosystem.updateNumAgents"]}
{"id": "C59", "title": "Parallel work split covers every location once", "statement": "The ranges of locations assigned to processes are disjoint, cover all locations, and differ in size by at most one; gathering the scores with the declared sizes and offsets reproduces the full score array.", "quantifier": "all numbers of locations and processes", "why_tests_cant": "all combinations of counts, including fewer locations than processes", "anchors": ["flee/pflee.py:Ecosystem.evolve", "flee/pflee.py:Ecosystem.synchronize_locations"]}
{"id": "C60", "title": "Coupling messages round-trip", "statement": "Agent numbers written to a coupling CSV string are read back unchanged by the other side for every set of distinct location names without separators.", "quantifier": "all lists of names and counts", "why_tests_cant": "all strings and counts; parsing of arbitrary content", "anchors": ["flee/coupling.py:CouplingInterface.generateOutputCSVString", "flee/coupling.py:CouplingInterface.extractNewAgentsFromCSVString"]}
{"id": "C61", "title": "Coupling conserves agents", "statement": "In one coupling exchange the agents removed at coupled locations on one side equal the agents inserted on the other side.", "quantifier": "all numbers of agents at coupled locations and all coupling directions", "why_tests_cant": "depends on both simulations' states and on the exchange direction", "anchors": ["flee/coupling.py:CouplingInterface.Couple", "flee/flee.py:Ecosystem.clearLocationsFromAgents"]}
{"id": "C62", "title": "Clearing locations removes exactly their agents", "statement": "clearLocationsFromAgents removes exactly the agents at the named locations, keeps all others in order and sets the counters of the named locations accordingly.", "quantifier": "all agent lists and name lists", "why_tests_cant": "fails as soon as one agent is kept; tests never keep one", "anchors": ["flee/flee.py:Ecosystem.clearLocationsFromAgents"]}
{"id": "C63", "title": "Settings keys have their documented effect", "statement": "The documented key camps_are_sinks in the spawn rules switches camp deactivation on, and any absent optional key yields its documented default.", "quantifier": "all settings files", "why_tests_cant": "all combinations of present and absent keys", "anchors": ["flee/SimulationSettings.py:SimulationSettings.ReadFromYML", "flee/SimulationSettings.py:fetchss"]}
{"id": "C64", "title": "Error measures", "statement": "The validation error measures are zero exactly when simulation and data agree, are never negative, and the relative error is bounded by the absolute differences divided by the data total.", "quantifier": "all lists of counts", "why_tests_cant": "all lists, including zero data totals", "anchors": ["flee/postprocessing/analysis.py:rel_error", "flee/postprocessing/analysis.py:abs_error"]}
{"id": "C65", "title": "IDP totals", "statement": "numIDPs equals the number of agents currently counted at IDP camps and never exceeds the total number of agents.", "quantifier": "all reachable states", "why_tests_cant": "an invariant over all histories", "anchors": ["flee/flee.py:Ecosystem.numIDPs"]}
{"id": "C66", "title": "Exported graph reflects the open network", "statement": "The exported graph lists every location once and exactly the open links with their distances.", "quantifier": "all networks and closure histories", "why_tests_cant": "arbitrary networks", "anchors": ["flee/flee.py:Ecosystem.export_graph"]}
{"id": "C67", "title": "Every location row becomes one location", "statement": "Storing the input geography creates exactly one location per row of the location table, in table order, with the row's name, country and scaled population (as capacity for camps, as population otherwise); a conflict zone dated after day 0 starts as a town.", "quantifier": "all location tables with documented types", "why_tests_cant": "arbitrary tables", "anchors": ["flee/InputGeography.py:InputGeography.StoreInputGeographyInEcosystem"]}
{"id": "C68", "title": "Accepted settings are consistent", "statement": "When the settings file is read without an error, spawning is never restricted to conflict zones and to flood zones at once, conflict-driven and flood-driven spawning are never both on, and flood-driven spawning implies that spawning is restricted to flood zones and takes agents from the population.", "quantifier": "all settings files and all earlier settings", "why_tests_cant": "all combinations of keys", "anchors": ["flee/SimulationSettings.py:SimulationSettings.ReadFromYML"]}
{"id": "C69", "title": "Settings depend on the file alone", "statement": "The settings in use after reading a settings file depend only on that file, not on settings that were read before in the same program.", "quantifier": "all settings files and all earlier settings", "why_tests_cant": "needs two reads with different histories compared", "anchors": ["flee/SimulationSettings.py:SimulationSettings.ReadFromYML"]}
{"id": "C70", "title": "Flood rules come with their tables", "statement": "Whenever flood rules are enabled after reading a settings file, the maximum flood level, the move chances, the location weights and the link weights that the flood code looks up are set.", "quantifier": "all settings files and all earlier settings", "why_tests_cant": "arbitrary files; a missing table shows only when the first flood happens", "anchors": ["flee/SimulationSettings.py:SimulationSettings.ReadFromYML"]}
{"id": "C71", "title": "Parallel count of spawned agents", "statement": "After the exchange in a time step, the number of agents spawned at a location that every process sees is the number of agents that were spawned there.", "quantifier": "all process counts, all lists of spawned agents", "why_tests_cant": "needs several processes; tests run one or compare only totals", "anchors": ["flee/pflee.py:Ecosystem.addAgent", "flee/pflee.py:Ecosystem.evolve"]}
{"id": "C72", "title": "Parallel score array fits the ecosystem", "statement": "The shared score array holds exactly two scores per location of the ecosystem.", "quantifier": "all numbers of locations and all earlier ecosystems of the program", "why_tests_cant": "the array is a class attribute, so a second ecosystem is needed", "anchors": ["flee/pflee.py:Ecosystem.addLocation", "flee/pflee.py:Ecosystem.synchronize_locations"]}
{"id": "C73", "title": "Parallel IDP totals", "statement": "numIDPs of the parallel simulation is the number of agents at IDP camps, counted once.", "quantifier": "all process counts and all synchronised numbers", "why_tests_cant": "needs several processes", "anchors": ["flee/pflee.py:Ecosystem.numIDPs"]}
{"id": "C74", "title": "Several coupled instances are averaged", "statement": "When several instances send numbers of agents, the number received for a name is the mean of the numbers sent for it, rounded to a nearest integer.", "quantifier": "all numbers of instances, coupled locations and counts", "why_tests_cant": "instances that couple different locations; arbitrary numbers of instances", "anchors": ["flee/coupling.py:CouplingInterface.readInputFromFile", "flee/coupling.py:CouplingInterface.Couple"]}
{"id": "C75", "title": "Indirect coupling leaves agents in place", "statement": "For a location coupled with the documented direction 'inout indirect' no agents are added or removed.", "quantifier": "all reachable states and received numbers", "why_tests_cant": "no test uses this direction", "anchors": ["flee/coupling.py:CouplingInterface.addCoupledLocation", "flee/coupling.py:CouplingInterface.Couple"]}
{"id": "C76", "title": "Flood levels follow the table", "statement": "With flood rules, each daily update gives every location the flood level that the table of levels has for it on that day (0 if the table does not name it), and with a forecaster all its levels; nothing else of the state changes.", "quantifier": "all tables, days and states without scheduled type changes", "why_tests_cant": "arbitrary tables and histories; the frame condition covers every field", "anchors": ["flee/InputGeography.py:InputGeography.AddNewConflictZones", "flee/flee.py:Ecosystem.set_attribute"]}
{"id": "C77", "title": "Day tables are read cell by cell", "statement": "In the tables of conflicts and of flood levels, the value read for a location and a day is the cell below the location's name in the row of that day.", "quantifier": "all tables", "why_tests_cant": "arbitrary tables; rows of different length do not occur in test data", "anchors": ["flee/InputGeography.py:InputGeography.ReadConflictInputCSV", "flee/InputGeography.py:InputGeography.ReadAttributeInputCSV"]}
{"id": "C78", "title": "Flood rules read the flood levels", "statement": "If the settings enable flood rules, the table of flood levels is read, so that the daily update finds it.", "quantifier": "all settings files and tables", "why_tests_cant": "all combinations of settings", "anchors": ["flee/InputGeography.py:InputGeography.ReadFlareConflictInputCSV", "flee/InputGeography.py:InputGeography.AddNewConflictZones", "flee/SimulationSettings.py:SimulationSettings.ReadFromYML"]}
{"id": "C79", "title": "Flood level sets the chance to leave", "statement": "With flood rules and no forecast in use, an agent at a location under water leaves when the number drawn is below the chance listed for the flood level, and at a location without water when it is below the location's usual chance.", "quantifier": "all states, tables and draws", "why_tests_cant": "the draw is random; tests cannot cover the boundary", "anchors": ["flee/moving.py:calculateMoveChance", "flee/flee.py:Person.evolve"]}
{"id": "C80", "title": "Entries for level 0 are ignored", "statement": "As documented, the entries for flood level 0 in the tables of move chances and location weights have no influence on the agents.", "quantifier": "all reachable states and tables", "why_tests_cant": "compares two configurations in every state", "anchors": ["flee/moving.py:calculateMoveChance", "flee/moving.py:getEndPointScore", "flee/scoring.py:calculateLocationScore"]}
{"id": "C81", "title": "Flood weights multiply the location weight once", "statement": "The score of a destination under water is its score without the water times the location weight of the level.", "quantifier": "all locations, tables and agents", "why_tests_cant": "compares two states; needs a flood zone under water", "anchors": ["flee/moving.py:getEndPointScore", "flee/scoring.py:calculateLocationScore"]}
{"id": "C82", "title": "A forecast without flood changes nothing", "statement": "A flood forecast that expects no flood at a location, or to which an agent gives no weight, leaves the agent's chance to leave unchanged.", "quantifier": "all agents, locations, days and forecasts", "why_tests_cant": "compares two configurations in every state", "anchors": ["flee/moving.py:calculateMoveChance"]}
{"id": "C83", "title": "A forecast is used for its whole timescale", "statement": "A forecaster with a timescale of at least one day multiplies the chance to leave with the mean of the forecast and the awareness of the agent, until its end time.", "quantifier": "all timescales, days, agents and locations", "why_tests_cant": "boundary values of the timescale", "anchors": ["flee/moving.py:calculateMoveChance"]}
{"id": "C84", "title": "Forecast weights count from today", "statement": "The weight of a forecast level is chosen by how many days ahead it is.", "quantifier": "all days, forecasts and weights", "why_tests_cant": "tests look at one day, where both readings agree", "anchors": ["flee/moving.py:calculateMoveChance", "flee/moving.py:getEndPointScore"]}
{"id": "C85", "title": "Flood-driven spawning follows the levels", "statement": "With flood-driven spawning, the agents added at a location on a day are the truncated table entry of its flood level (times its population in the mode pop_ratio), none without water, all placed there, and the number returned is the number added; if they are taken from the population, it falls by that number.", "quantifier": "all reachable states, tables and days", "why_tests_cant": "arbitrary tables and populations", "anchors": ["flee/spawning.py:spawn_daily_displaced"]}
{"id": "C86", "title": "An agent on a link advances by the speed of the day", "statement": "In a time step an agent on a link advances by the speed of the day: the walking speed if the draw is below the walk probability of the link or it is on the first journey of those who start on foot, otherwise the speed of the link or the general speed; it stays on the link as long as it is not beyond the end.", "quantifier": "all reachable states, time steps and draws", "why_tests_cant": "random speed; boundary at the end of the link", "anchors": ["flee/flee.py:Person.evolve", "flee/flee.py:Person.finish_travel"]}
{"id": "C87", "title": "Attributes belong to one location", "statement": "Setting an attribute of a location changes it for this location and for nothing else.", "quantifier": "all sequences of adding locations, links and of setting attributes", "why_tests_cant": "aliasing of objects; all sequences of calls", "anchors": ["flee/flee.py:Location.__init__", "flee/flee.py:Link.__init__", "flee/flee.py:Ecosystem.addLocation", "flee/flee.py:Ecosystem.linkUp"]}
{"id": "C88", "title": "An update from a table reaches every location", "statement": "After an update of an attribute from a day table every location has the value that the table gives it for the day (the default if it is not in the table), and nothing else has changed.", "quantifier": "all tables, days and sequences of calls", "why_tests_cant": "aliasing of objects; all sequences of calls", "anchors": ["flee/InputGeography.py:InputGeography.UpdateLocationAttributes"]}
{"id": "C89", "title": "Distance as the crow flies is the great-circle distance", "statement": "The distance computed between two locations is the great-circle distance of the points with their coordinates on a sphere of radius 6371; it is symmetric, nonnegative, zero for equal coordinates, at most half the circumference and satisfies the triangle inequality.", "quantifier": "all coordinates", "why_tests_cant": "a statement about the reals", "anchors": ["flee/flee.py:Location.calculateDistance"]}
{"id": "C90", "title": "Distances of input locations use latitude and longitude", "statement": "For locations read from an input table the distance computed is the one between the points with the latitudes and longitudes of the rows.", "quantifier": "all tables and numbers", "why_tests_cant": "tests use made-up coordinates", "anchors": ["flee/flee.py:Location.calculateDistance", "flee/InputGeography.py:InputGeography.StoreInputGeographyInEcosystem"]}
{"id": "C91", "title": "Agents that stay close to home prefer destinations near home", "statement": "With the rule to stay close to home, of two destinations that are equally attractive otherwise an agent prefers the one nearer to its home location.", "quantifier": "all reachable states, agents and destinations", "why_tests_cant": "tests score agents that are still at home", "anchors": ["flee/moving.py:getEndPointScore"]}
{"id": "C92", "title": "Population weighs destinations", "statement": "With population as a location weight, the score of a destination that is not a camp is multiplied with its population to the power from the settings.", "quantifier": "all reachable states, agents and destinations", "why_tests_cant": "tests do not use the rule with realistic populations", "anchors": ["flee/moving.py:getEndPointScore"]}
{"id": "C93", "title": "Children avoid hazards and teenage boys take risks", "statement": "Children weigh the score of a destination twice and boys between 14 and 19 not at all if the settings say so; everybody else and every other setting is not affected.", "quantifier": "all ages, genders, scores and settings", "why_tests_cant": "boundaries of ages and combinations of two rules", "anchors": ["flee/moving.py:getEndPointScore"]}
{"id": "C94", "title": "Ethnicity matching works", "statement": "When ethnicities are matched for camps, conflict zones or towns, agents with an ethnicity can score every destination that they could score without the rule.", "quantifier": "all reachable states, agents and destinations", "why_tests_cant": "no test enables the rule", "anchors": ["flee/moving.py:getEndPointScore"]}
{"id": "C95", "title": "The score uses the mean of a forecast", "statement": "A flood forecast in use multiplies the score of a destination with its mean over the timescale and with the awareness of the agent.", "quantifier": "all forecasts, days, agents and destinations", "why_tests_cant": "arithmetic over arbitrary forecasts", "anchors": ["flee/moving.py:getEndPointScore"]}
{"id": "C96", "title": "A forecast without floods leaves scores unchanged", "statement": "Where the forecast in use expects no flood, the score of a destination is the same as without forecasts.", "quantifier": "all forecasts, days, agents and destinations", "why_tests_cant": "compares two configurations in every state", "anchors": ["flee/moving.py:getEndPointScore"]}
{"id": "C97", "title": "Awareness level -1 means no weighting", "statement": "With awareness level -1 all candidate routes of an agent have the same weight.", "quantifier": "all reachable states, agents and locations", "why_tests_cant": "the level is documented but not tested", "anchors": ["flee/moving.py:calculateLinkWeight", "flee/moving.py:selectRoute"]}
{"id": "C98", "title": "Weight power 0 is a random walk", "statement": "With weight power 0 each of the n routes that an agent sees is taken with probability 1/n, whatever scores, distances, capacities and pruning are.", "quantifier": "all networks, agents and draws", "why_tests_cant": "statement about probabilities and all configurations", "anchors": ["flee/moving.py:calculateLinkWeight", "flee/moving.py:selectRoute", "flee/moving.py:pruneRoutes"]}
{"id": "C99", "title": "Distance power 0 makes distances irrelevant", "statement": "With distance power 0 the choice of a route does not depend on the lengths of links: in the same network with other lengths the same draw gives the same route.", "quantifier": "all networks, lengths, agents and draws", "why_tests_cant": "relates two runs on different networks", "anchors": ["flee/moving.py:calculateLinkWeight", "flee/moving.py:selectRoute"]}
{"id": "C100", "title": "Weight softening adds a constant to all weights", "statement": "The weight softening is added to the weight of every candidate route.", "quantifier": "all reachable states, agents and locations", "why_tests_cant": "the parameter is 0 in tests", "anchors": ["flee/moving.py:calculateLinkWeight"]}
{"id": "C101", "title": "Softening adds its kilometres to every link", "statement": "The distance softening has the effect of making every link longer by its kilometres.", "quantifier": "all reachable states, agents and locations", "why_tests_cant": "only visible for routes of several links", "anchors": ["flee/moving.py:calculateLinkWeight"]}
{"id": "C102", "title": "Fixed routes are weighed with the scores of the day", "statement": "After a time step the weight of every fixed route is that of a walk to its destination with the score that the destination has on this day.", "quantifier": "all reachable states and time steps, without major routes", "why_tests_cant": "depends on the order of locations and changes of scores", "anchors": ["flee/scoring.py:updateLocationScore", "flee/crawling.py:generateLocationRoutes", "flee/flee.py:Ecosystem.evolve"]}
{"id": "C103", "title": "Fixed routes weigh the same as searched routes", "statement": "The weight of a fixed route for an agent is the weight that the same walk has for an agent that searches its routes itself.", "quantifier": "all reachable states, agents and locations, without major routes", "why_tests_cant": "compares two mechanisms in every state", "anchors": ["flee/moving.py:selectRoute", "flee/crawling.py:calculateLocCrawlLinkWeight"]}
{"id": "C104", "title": "Full locations have no attraction", "statement": "A route to a location with at least as many agents as places has the weight of attraction 0.", "quantifier": "all reachable states, agents and locations", "why_tests_cant": "needs full camps together with every way to find routes", "anchors": ["flee/moving.py:getCapMultiplier", "flee/moving.py:selectRoute"]}
{"id": "C105", "title": "Fixed routes lead to the same destinations as searched routes", "statement": "The destinations of the fixed routes of a location are the destinations of the routes that agents find there themselves.", "quantifier": "all reachable states and locations, without major routes", "why_tests_cant": "compares two searches on arbitrary networks", "anchors": ["flee/crawling.py:generateLocationRoutes", "flee/moving.py:calculateLinkWeight"]}
{"id": "C106", "title": "Printed camp counts are the numbers of agents in the camps", "statement": "In every row printed by the simulation program, the simulated count of each camp is the number of agents at the location with its name at the end of the day.", "quantifier": "all inputs, settings, random numbers and days", "why_tests_cant": "the counters pass through spawning, closures, travel and changes of types before they are printed", "anchors": ["runscripts/run.py:main loop", "flee/flee.py:Ecosystem.get_camp_names"]}
{"id": "C107", "title": "The printed number of refugees in camps counts all camps", "statement": "The number printed as refugees in camps (simulation) is the number of agents that are at camps.", "quantifier": "all inputs, settings, random numbers and days", "why_tests_cant": "tests have the same camps on all days", "anchors": ["runscripts/run.py:main loop", "flee/flee.py:Ecosystem.get_camp_names"]}
{"id": "C108", "title": "The printed total is the start and what was spawned", "statement": "The number printed as total refugees (simulation) is the number of agents before the first day and the numbers that spawning reported on the days so far.", "quantifier": "all inputs with rates and populations that are not negative", "why_tests_cant": "holds for all days and all kinds of spawning", "anchors": ["runscripts/run.py:main loop", "flee/spawning.py:spawn_daily_displaced"]}
{"id": "C109", "title": "Printed rows balance", "statement": "With spawning from data, agents in a printed row are the agents before the first day, the refugee count and the debt of the row, without those of day 0 if they were inserted before.", "quantifier": "all inputs, settings, random numbers and days", "why_tests_cant": "needs falling data over many days", "anchors": ["runscripts/run.py:main loop", "flee/spawning.py:spawn_daily_displaced", "flee/spawning.py:refresh_spawn_weights"]}
{"id": "C110", "title": "Printed error 0 means agreement with the data", "statement": "The total error of a printed row is 0 exactly if all camps have the counts of the data.", "quantifier": "all inputs, settings, random numbers and days", "why_tests_cant": "an equivalence over all rows", "anchors": ["runscripts/run.py:main loop"]}
{"id": "C111", "title": "One row for each day", "statement": "A run that does not fail prints one row for each day from 0 to the end, in order, and the clock of the ecosystem advances by one each day.", "quantifier": "all inputs, settings and random numbers", "why_tests_cant": "runs of any length", "anchors": ["runscripts/run.py:main loop", "flee/flee.py:Ecosystem.evolve"]}
{"id": "C112", "title": "Agents come from places in conflict", "statement": "Agents spawned on a day come from locations that are in conflict on that day.", "quantifier": "all inputs and random numbers, without spawning driven by floods", "why_tests_cant": "depends on when weights are refreshed", "anchors": ["runscripts/run.py:main loop", "flee/spawning.py:spawn_daily_displaced", "flee/flee.py:Ecosystem.refresh_spawn_weights", "flee/InputGeography.py:AddNewConflictZones"]}
{"id": "C113", "title": "Printed data are those of the day", "statement": "The counts printed as data for the camps are those that the data give for the day, and their sum is printed as refugees in camps (UNHCR) if there are refugees.", "quantifier": "all inputs, settings and days, with a table that does not start empty", "why_tests_cant": "the table is written on day 0", "anchors": ["runscripts/run.py:main loop", "flee/datamanager/DataTable.py:get_field"]}
{"id": "C114", "title": "Agents before the first day", "statement": "Without a file of agents, each camp holds before the first day as many agents as its row announces under initial_idps and, if day 0 is to be inserted, as the data give for it; other locations hold none; with empty camps there are none.", "quantifier": "all inputs with distinct names and settings", "why_tests_cant": "all combinations of settings", "anchors": ["runscripts/run.py:main loop", "flee/spawning.py:add_initial_refugees"]}
{"id": "C115", "title": "The printed refugee count is that of the data", "statement": "With spawning from data, a positive refugee count of a printed row is the number of refugees that the data give for the day: the total, or the sum over camps if the settings ask for it.", "quantifier": "all inputs, settings and days, with a table that does not start empty", "why_tests_cant": "sums of differences over all days", "anchors": ["runscripts/run.py:main loop", "flee/datamanager/DataTable.py:get_daily_difference"]}
{"id": "C116", "title": "Empty tables print changes since day 0", "statement": "With a table that starts empty, the counts printed as data for the camps are the counts of the day less those of day 0.", "quantifier": "all inputs, settings and days", "why_tests_cant": "depends on who writes the counts of day 0", "anchors": ["runscripts/run.py:main loop", "flee/datamanager/DataTable.py:get_field", "flee/datamanager/DataTable.py:get_daily_difference"]}
{"id": "C117", "title": "All processes have the same network", "statement": "After any calls, whatever each process draws at random, all processes have the same locations, links, closures, conflicts and time.", "quantifier": "all runs, numbers of processes, settings and random draws", "why_tests_cant": "depends on the random choices of every process", "anchors": ["flee/pflee.py:Ecosystem.evolve", "flee/pflee.py:Ecosystem.synchronize_locations"]}
{"id": "C118", "title": "Parallel scores", "statement": "After a step every process has for every location the score that the sequential program would compute, and the processes agree on the scores at any time.", "quantifier": "all runs, numbers of processes and modes", "why_tests_cant": "all splits of the locations over processes", "anchors": ["flee/pflee.py:Ecosystem.evolve", "flee/pflee.py:Ecosystem.synchronize_locations"]}
{"id": "C119", "title": "Numbers of agents count all processes", "statement": "On every process the number of agents of a location or link is the number of agents there on all processes together.", "quantifier": "all runs, numbers of processes and modes", "why_tests_cant": "agents are spread over processes by counters and draws", "anchors": ["flee/pflee.py:Ecosystem.evolve", "flee/pflee.py:Ecosystem.updateNumAgents", "flee/pflee.py:Ecosystem.addAgent"]}
{"id": "C120", "title": "Total number of agents", "statement": "On every process the total number of agents is the number of agents on all processes together.", "quantifier": "all runs, numbers of processes and modes", "why_tests_cant": "needs links closed while in use", "anchors": ["flee/pflee.py:Ecosystem.updateNumAgents", "flee/pflee.py:Ecosystem.numAgents"]}
{"id": "C121", "title": "Camps as sinks in parallel runs", "statement": "With camps_are_sinks a parallel step is not stopped by an undefined name.", "quantifier": "all runs with camps_are_sinks", "why_tests_cant": "needs an MPI run with that setting", "anchors": ["flee/pflee.py:Ecosystem.evolve"]}
{"id": "C122", "title": "Agents stay on their process", "statement": "A parallel step moves no agent to another process, loses none and makes none; each keeps home and attributes and is one day older.", "quantifier": "all states and numbers of processes", "why_tests_cant": "all states of all processes", "anchors": ["flee/pflee.py:Ecosystem.evolve"]}
{"id": "C123", "title": "Parallel populations", "statement": "All processes agree on the populations of all locations.", "quantifier": "all runs, numbers of processes and random draws", "why_tests_cant": "depends on the random choices of every process", "anchors": ["flee/pflee.py:Ecosystem.addAgent"]}
{"id": "C124", "title": "Spawned agents in parallel runs", "statement": "After a parallel step the number of agents spawned at a location is the number of agents that started there.", "quantifier": "all runs without removed or inserted agents, all numbers of processes", "why_tests_cant": "all numbers of processes", "anchors": ["flee/pflee.py:Ecosystem.addAgent", "flee/pflee.py:Ecosystem.evolve"]}
{"id": "C125", "title": "Balance of processes", "statement": "The numbers of agents of two processes differ by at most one.", "quantifier": "all runs and numbers of processes", "why_tests_cant": "all orders of additions, steps and removals", "anchors": ["flee/pflee.py:Ecosystem.addAgent", "flee/pflee.py:Ecosystem.updateNumAgents", "flee/pflee.py:Ecosystem.clearLocationsFromAgents"]}
{"id": "C126", "title": "Weights of major routes", "statement": "Each stored fixed route is weighed by the walk it stands for: with the whole distance as a regular route, or with a quarter of it as a major route.", "quantifier": "all maps, scores, flood levels and settings", "why_tests_cant": "all maps and routes over hubs", "anchors": ["flee/crawling.py:_addLocationRoute", "flee/crawling.py:_addMajorRouteToLocation"]}
{"id": "C127", "title": "Major routes are two-way", "statement": "Each line of the file of major routes gives the route at its first location and the reversed route at its last location, and nothing else does.", "quantifier": "all input files", "why_tests_cant": "files with padded lines", "anchors": ["flee/InputGeography.py:InputGeography.StoreInputGeographyInEcosystem"]}
{"id": "C128", "title": "Major routes are not recursive", "statement": "After a step each stored route is a walk within the awareness range, or such a walk and then one major route of the location where it ends; never two major routes.", "quantifier": "all runs with fixed routes", "why_tests_cant": "all maps with several major routes that meet", "anchors": ["flee/crawling.py:insertAllMajorRoutesAtLocation", "flee/crawling.py:insertMajorRoutesForLocation"]}
{"id": "C129", "title": "Major routes and closed links", "statement": "Closing a link does not make a step stop when there are major routes.", "quantifier": "all runs with fixed routes and closures", "why_tests_cant": "needs a closure on a major route", "anchors": ["flee/crawling.py:_addMajorRouteToLocation"]}
{"id": "C130", "title": "Major routes are known", "statement": "After a step each location knows a route to the end of each of its major routes and of those of locations nearby, and of several major routes the best one.", "quantifier": "all maps and runs with fixed routes", "why_tests_cant": "depends on the order of locations and on distances", "anchors": ["flee/crawling.py:_addLocationRoute", "flee/crawling.py:insertMajorRoutesForLocation"]}
{"id": "C131", "title": "A process steps like the sequential program", "statement": "In a step of the parallel simulation each process does with its agents what a step of the sequential simulation would do with them: same places, same routes, same distances, same numbers of agents on its copy of the map, and the same random numbers used up.", "quantifier": "all parallel runs, all numbers of processes", "why_tests_cant": "needs both programs on the same random numbers, on all maps", "anchors": ["flee/pflee.py:Ecosystem.evolve", "flee/flee.py:Ecosystem.evolve"]}
{"id": "C132", "title": "One process is the sequential program", "statement": "A parallel program on one process ends up with the agents, the numbers of agents, the closures and the network of the sequential program that makes the same calls with the same random numbers.", "quantifier": "all programs", "why_tests_cant": "all sequences of calls", "anchors": ["flee/pflee.py:Ecosystem", "flee/flee.py:Ecosystem"]}
{"id": "C133", "title": "New agents in parallel runs", "statement": "Where the sequential program can add an agent, the parallel program can; with `TakeFromPopulation` it takes one person from the population of the location and of no other.", "quantifier": "all states of parallel runs, all numbers of processes", "why_tests_cant": "the boundary is at the last person of a location", "anchors": ["flee/pflee.py:Ecosystem.addAgent", "flee/flee.py:Ecosystem.addAgent"]}
{"id": "C134", "title": "Parallel agents do not set out for a full camp", "statement": "In the first half of a step of a parallel run no agent sets out for a camp that is full, where the agents of all processes count.", "quantifier": "all parallel runs, all numbers of processes", "why_tests_cant": "depends on agents of other processes", "anchors": ["flee/pflee.py:Person.evolve", "flee/flee.py:Person.take_next_step"]}
{"id": "C135", "title": "Days between dates", "statement": "For two texts of dates, `subtract_dates` gives the number of days of the calendar from the second to the first; `steps_to_date` goes on by a number of days; what is not a date is rejected.", "quantifier": "all texts, all dates of the calendar, all numbers of days", "why_tests_cant": "leap years and ends of months are rare among the dates of a test", "anchors": ["flee/datamanager/DataTable.py:subtract_dates", "flee/datamanager/DataTable.py:steps_to_date"]}
{"id": "C136", "title": "Printed dates", "statement": "The rows printed by the program carry the dates of consecutive days that start with the start date; reading a date back gives the number of its row.", "quantifier": "all files of input, all numbers of days, all streams of random numbers", "why_tests_cant": "ends of months and of years inside a simulation", "anchors": ["runscripts/run.py", "flee/datamanager/DataTable.py:subtract_dates"]}
{"id": "C137", "title": "Lines of data files", "statement": "A file of validation data gives one row for each line with a date and a count, in order, with the days since the start date and the count divided by the scale factor; comments, headings, empty lines and lines without a count give none.", "quantifier": "all files, start dates and scale factors", "why_tests_cant": "depends on the order of comments, headings and empty lines", "anchors": ["flee/datamanager/DataTable.py:_processEntry", "flee/datamanager/DataTable.py:ConvertCsvFileToNumPyTable"]}
{"id": "C138", "title": "Scaled-down data", "statement": "With a scale factor the data, after corrections, are those without it with all counts divided by the factor, and what is shown on a day is the value of the curve divided by the factor, without the fraction.", "quantifier": "all files of data and corrections, all scale factors", "why_tests_cant": "only counts smaller than the factor show the difference", "anchors": ["flee/datamanager/DataTable.py:DataTable.__init__", "flee/datamanager/handle_refugee_data.py:RefugeeTable.ReadL1Corrections"]}
{"id": "C139", "title": "Corrections change only earlier counts", "statement": "The file of corrections changes a count only in a column that it names and only on days before a date that it gives for it; headings and days stay.", "quantifier": "all tables, all files of corrections", "why_tests_cant": "several corrections of the same column", "anchors": ["flee/datamanager/handle_refugee_data.py:RefugeeTable.ReadL1Corrections", "flee/datamanager/handle_refugee_data.py:RefugeeTable.correctLevel1Registrations"]}
{"id": "C140", "title": "Simulation period", "statement": "The start date and the length of the simulation are those in the last lines of the file that give them, whatever the case of their names; other lines are ignored.", "quantifier": "all files", "why_tests_cant": "files with empty lines or repeated values are not among the tests", "anchors": ["flee/datamanager/read_period.py:read_sim_period"]}
{"id": "C141", "title": "From data file to printed row", "statement": "If a camp has a data file with increasing dates and no correction names it, then the data printed for the camp follow the curve through the counts of the file, and a row with the date of a line of the file shows the count of that line divided by the scale factor, without the fraction.", "quantifier": "all files of input, all numbers of days, all streams of random numbers", "why_tests_cant": "needs the whole program", "anchors": ["runscripts/run.py", "flee/datamanager/DataTable.py:DataTable.__init__", "flee/datamanager/DataTable.py:DataTable.get_field"]}
{"id": "C142", "title": "Columns of the data directory", "statement": "Every line of the layout of the validation data with a name and files gives the column of that name, in order; the counts of several files with the same days are added; comments and shorter lines give nothing.", "quantifier": "all layouts, all files, all start dates and scale factors", "why_tests_cant": "lines with several files are not among the tests", "anchors": ["flee/datamanager/DataTable.py:DataTable.__init__", "flee/datamanager/DataTable.py:AddCSVTables"]}
{"id": "C143", "title": "Drawn attributes", "statement": "A value drawn from a demographic table for a location is that of a row with positive weight, where the weights are those of the column of the location, or of the column Default; the chance of a row is its share of the weights.", "quantifier": "all tables, all locations, all random numbers in [0, 1)", "why_tests_cant": "the tests draw a few values and compare ranges", "anchors": ["flee/spawning.py:draw_sample", "flee/spawning.py:draw_samples"]}
{"id": "C144", "title": "Files of demographic tables", "statement": "The file demographics_a.csv holds the table of the attribute a; a directory of such files is read as the tables they hold.", "quantifier": "all names of attributes, all files", "why_tests_cant": "the tests use one file with a short name", "anchors": ["flee/spawning.py:read_demographic_csv", "flee/spawning.py:read_demographics"]}
{"id": "C145", "title": "Attributes of agents in runs", "statement": "At all times in a run each agent has, for each demographic table in the input directory, a value that the table allows for the home of the agent.", "quantifier": "all inputs, all days, all agents, all random numbers", "why_tests_cant": "tests do not inspect the attributes of agents in runs, nor run without camps", "anchors": ["flee/spawning.py:add_initial_refugees", "flee/spawning.py:spawn_daily_displaced", "flee/spawning.py:draw_samples", "runscripts/run.py"]}
{"id": "C146", "title": "Logs do not change the simulation", "statement": "Whatever is logged, a time step does the same to the simulation.", "quantifier": "all programs, all log settings, all random numbers", "why_tests_cant": "tests compare at most files of single runs", "anchors": ["flee/flee.py:Ecosystem.evolve", "flee/Diagnostics.py:write_agents_par", "flee/Diagnostics.py:write_links_par"]}
{"id": "C147", "title": "Rows of the log of agents", "statement": "With a log of agents, each day adds to the log, in order, one row for each agent that has not been removed, which says where the agent is, how far it has come and what attributes it has; in a run no two rows have the same day and agent.", "quantifier": "all programs, all log levels, all days", "why_tests_cant": "tests do not read the logs back", "anchors": ["flee/Diagnostics.py:write_agents_par", "flee/Diagnostics.py:write_agents"]}
{"id": "C148", "title": "Attributes in the log of agents", "statement": "The columns that the header of the log of agents gives to the attributes hold the attributes of the agents.", "quantifier": "all programs, all attributes", "why_tests_cant": "tests use agents that all have the same attributes", "anchors": ["flee/Diagnostics.py:write_agents_par"]}
{"id": "C149", "title": "Places on the way in the log of agents", "statement": "From log level 3 on, the rows with the number of a hop give the locations that the agent has passed on that day.", "quantifier": "all programs, all days, all ways", "why_tests_cant": "tests do not read the logs back", "anchors": ["flee/Diagnostics.py:write_agents_par", "flee/flee.py:Person.finish_travel"]}
{"id": "C150", "title": "The log of links", "statement": "Each day the log of links gets a row for each link of the network with the number of agents who have entered it so far; from level 2 on, numbers by value of an attribute add up to it.", "quantifier": "all programs, all attributes, all closures of links", "why_tests_cant": "tests do not read the logs back, nor close and reopen links with logs", "anchors": ["flee/Diagnostics.py:write_links_par", "flee/flee.py:Link.IncrementNumAgents", "flee/flee.py:Ecosystem.remove_link"]}
{"id": "C151", "title": "Arrivals in camps and lengths of journeys", "statement": "With logs of camps, each day adds the number of agents who are newly in a camp and the mean length of their journeys.", "quantifier": "all programs, all days, all ways", "why_tests_cant": "tests do not look at arrivals, nor at agents who pass a camp", "anchors": ["flee/flee.py:Ecosystem._aggregate_arrivals", "flee/flee.py:Person.finish_travel"]}
{"id": "C152", "title": "New agents in the parallel program", "statement": "On every day of a parallel simulation the number of agents on all processes grows by the number that each process has counted, so that each new agent exists on exactly one process, and all processes return the same number of new agents.", "quantifier": "all inputs, all numbers of processes, all random numbers, all days", "why_tests_cant": "tests run one process or few agents, and compare no processes", "anchors": ["runscripts/run_par.py:75-81", "flee/spawning.py:spawn_daily_displaced", "flee/pflee.py:Ecosystem.addAgent"]}
{"id": "C153", "title": "Printed numbers of agents in camps in the parallel program", "statement": "On every day of a parallel simulation the printed count of each camp is the number of agents of all processes in that camp, and the printed number of refugees in camps is the sum over the camps.", "quantifier": "all inputs, all numbers of processes, all random numbers, all days", "why_tests_cant": "tests run fixed inputs and compare no processes", "anchors": ["runscripts/run_par.py:86-122", "flee/pflee.py:Ecosystem.updateNumAgents"]}
{"id": "C154", "title": "Printed total in the parallel program", "statement": "The printed total of a parallel simulation is the number of agents on all processes.", "quantifier": "all inputs, all numbers of processes, all random numbers, all days", "why_tests_cant": "tests do not close links that are in use", "anchors": ["runscripts/run_par.py:86-122", "flee/pflee.py:Ecosystem.updateNumAgents", "flee/pflee.py:Ecosystem.numAgents"]}
{"id": "C155", "title": "One row on all processes", "statement": "On every day all processes of a parallel simulation compute the same row, although each draws its own random numbers.", "quantifier": "all inputs, all numbers of processes, all random numbers, all days", "why_tests_cant": "only the row of one process is printed", "anchors": ["runscripts/run_par.py:86-125"]}
{"id": "C156", "title": "One row for each day in the parallel program", "statement": "A parallel simulation that does not fail prints exactly one row for each day, in order.", "quantifier": "all inputs, all numbers of processes, all random numbers", "why_tests_cant": "tests look at single runs", "anchors": ["runscripts/run_par.py:74-125", "flee/pflee.py:Ecosystem.getRankN"]}
{"id": "C157", "title": "The parallel program runs whenever the sequential one does", "statement": "Whenever the sequential program runs to its end, so does the parallel one on one process with the same input and the same random numbers.", "quantifier": "all inputs, all log settings, all random numbers", "why_tests_cant": "tests do not use all log settings with the parallel program", "anchors": ["runscripts/run_par.py:61-68", "runscripts/run.py:55-63"]}
{"id": "C158", "title": "The parallel program on one process prints what the sequential program prints", "statement": "On one process, with the same input and the same random numbers, the parallel program prints the same rows as the sequential one.", "quantifier": "all inputs, all random numbers, all days", "why_tests_cant": "tests compare final numbers of single runs within tolerances", "anchors": ["runscripts/run_par.py:13-125", "runscripts/run.py:13-120", "flee/pflee.py:Ecosystem.evolve", "flee/flee.py:Ecosystem.evolve"]}
{"id": "C159", "title": "Days of generated conflict zones", "statement": "In the file of locations made from a list of conflict events, the conflict date of a region is the number of days from the start date to a fatal event of that region.", "quantifier": "all lists of events with readable dates, all start dates, all orders of equal days in the sorted table", "why_tests_cant": "no test runs the program", "anchors": ["flee/preprocessing/acled2locations.py:85-109", "flee/preprocessing/acled2locations.py:178-187", "docs/FabFlee_Automated_Flee_based_simulation.md:60-63"]}
{"id": "C160", "title": "One conflict zone for each region with a fatal event", "statement": "The file of locations made from a list of conflict events has exactly one row for each region with a fatal event, and none for other regions.", "quantifier": "all lists of events, all arguments, all orders of equal days in the sorted table", "why_tests_cant": "no test runs the program", "anchors": ["flee/preprocessing/acled2locations.py:123-144", "flee/preprocessing/acled2locations.py:189-204"]}
{"id": "C161", "title": "The filter earliest", "statement": "With the filter earliest a row of the generated file comes from the first fatal event of its region.", "quantifier": "all lists of events with readable dates, all start dates, all orders of equal days in the sorted table", "why_tests_cant": "no test runs the program", "anchors": ["flee/preprocessing/acled2locations.py:130-144", "flee/preprocessing/acled2locations.py:193-204", "docs/FabFlee_Automated_Flee_based_simulation.md:60-63"]}
{"id": "C162", "title": "The filter fatalities", "statement": "With the filter fatalities a row of the generated file comes from an event with most fatalities in its region.", "quantifier": "all lists of events with readable dates, all start dates, all orders of equal days in the sorted table", "why_tests_cant": "no test runs the program", "anchors": ["flee/preprocessing/acled2locations.py:130-144", "flee/preprocessing/acled2locations.py:193-204", "docs/FabFlee_Automated_Flee_based_simulation.md:60-63"]}
{"id": "C163", "title": "Levels of regions for conflict zones", "statement": "The program that makes conflict zones from a list of events works for the levels admin1, admin2, admin3 and location.", "quantifier": "all lists of events with readable dates, all tables of populations with all regions", "why_tests_cant": "no test runs the program", "anchors": ["flee/preprocessing/acled2locations.py:130-144", "flee/preprocessing/acled2locations.py:175", "docs/FabFlee_Automated_Flee_based_simulation.md:60-63"]}
{"id": "C164", "title": "Populations of generated conflict zones", "statement": "The population in a row of the generated file is that of the first line of the table of populations for the region; the program fails exactly when a region with a fatal event is missing from that table.", "quantifier": "all lists of events with readable dates, all tables of populations", "why_tests_cant": "no test runs the program", "anchors": ["flee/preprocessing/acled2locations.py:13-18", "flee/preprocessing/acled2locations.py:211-222"]}
{"id": "C165", "title": "Conflict zones with all accepted versions of pandas", "statement": "The program that makes conflict zones from a list of events gives the same result with every version of pandas that the requirements accept.", "quantifier": "all lists of events with readable dates, all arguments", "why_tests_cant": "a test runs with one version of pandas", "anchors": ["flee/preprocessing/acled2locations.py:137-144", "flee/preprocessing/acled2locations.py:199-203", "requirements.txt:3"]}
{"id": "C166", "title": "Averaged error of the plotting program", "statement": "The averaged error that is printed with the figures is the mean over the days of the sum of the absolute differences of all camps, divided by the number of refugees in the data.", "quantifier": "all outputs with distinct names of camps and at least one day", "why_tests_cant": "no test runs the program", "anchors": ["flee/postprocessing/plot_flee_output.py:218-285", "flee/postprocessing/plot_flee_output.py:314-351"]}
{"id": "C167", "title": "Rescaled averaged error of the plotting program", "statement": "The rescaled averaged error is the mean over the days of the error left after all numbers of the simulation have been multiplied so that its total in camps agrees with the data.", "quantifier": "all outputs with distinct names of camps and at least one day", "why_tests_cant": "no test runs the program", "anchors": ["flee/postprocessing/plot_flee_output.py:271-282", "flee/postprocessing/plot_flee_output.py:327-332"]}
{"id": "C168", "title": "Rescaled error in the comparison of models", "statement": "The rescaled error written by the program that compares models is the rescaled error of the plotting program.", "quantifier": "all outputs with distinct names of camps and at least one day", "why_tests_cant": "no test runs the program", "anchors": ["flee/postprocessing/plot_flee_compare.py:56-89", "flee/postprocessing/plot_flee_output.py:271-282"]}
{"id": "C169", "title": "Two errors of a day", "statement": "The error of a day that the plotting program averages is the total error printed by the simulation on that day.", "quantifier": "all states of a simulation, all camps, all days", "why_tests_cant": "no test runs the program", "anchors": ["runscripts/run.py:82-120", "flee/postprocessing/plot_flee_output.py:256-282"]}
{"id": "C170", "title": "A figure for every camp", "statement": "From the output of a simulation the plotting program makes a figure for every camp, with the numbers of the simulation and of the data for that camp.", "quantifier": "all outputs with distinct names of camps, with or without the number of internally displaced people", "why_tests_cant": "no test runs the program", "anchors": ["flee/postprocessing/plot_flee_output.py:97-151", "runscripts/run.py:53-64"]}
{"id": "C171", "title": "Aggregated error of camps", "statement": "The aggregated error of a simulation lies between the smallest and the largest error of its camps.", "quantifier": "all lists of camps with their errors and numbers of observations", "why_tests_cant": "no test runs the program", "anchors": ["flee/postprocessing/StoreDiagnostics.py:46-64", "flee/postprocessing/extract-validation-results.py:79-97"]}
{"id": "C172", "title": "Accuracy ratio with a zero in the data", "statement": "The log accuracy ratio is -1 if there is a 0 in the actual values.", "quantifier": "all forecasts and actual values of equal length, all logarithms", "why_tests_cant": "no test calls the function with a 0", "anchors": ["flee/postprocessing/analysis.py:88-101"]}
{"id": "C173", "title": "Simple models to compare with", "statement": "The flat, sloped and constant-ratio models that a simulation is compared with agree with the data on the day they are made from.", "quantifier": "all data of camps, all totals", "why_tests_cant": "no test runs the program", "anchors": ["flee/postprocessing/extract-validation-results.py:132-163"]}
{"id": "C174", "title": "Validation results of short simulations", "statement": "Validation results can be extracted for a simulation of any length.", "quantifier": "all data of camps, all totals", "why_tests_cant": "no test runs the program", "anchors": ["flee/postprocessing/extract-validation-results.py:132-163"]}
{"id": "C175", "title": "No instance waits for ever", "statement": "When coupled models exchange files and nothing more can happen, every instance has finished or failed; none waits for a file for ever.", "quantifier": "all numbers of instances and days, all coupled locations, all orders of the steps of the processes", "why_tests_cant": "a test sees one order of steps on one machine", "anchors": ["flee/coupling.py:446-540", "multiscale/run_file_coupling.sh:111-117"]}
{"id": "C176", "title": "Coupled instances stay close", "statement": "The days of two instances of coupled models that exchange files never differ by more than one.", "quantifier": "all numbers of instances and days, all orders of the steps of the processes", "why_tests_cant": "a test sees one order of steps on one machine", "anchors": ["flee/coupling.py:467-496", "multiscale/run_mscale.py:45-149"]}
{"id": "C177", "title": "Coupling does not depend on timing", "statement": "What the instances of coupled models compute does not depend on their speed: the state of an instance on a day is the one it has if all instances exchange whole messages of the same day.", "quantifier": "all numbers of instances and days, all orders of the steps of the processes, reading included", "why_tests_cant": "a race that a test hits only by chance", "anchors": ["flee/coupling.py:446-540", "flee/coupling.py:336-343"]}
{"id": "C178", "title": "Files of an earlier run", "statement": "Files that an earlier run left in the directory have no influence on what coupled models compute.", "quantifier": "all files in the directory, all orders of the steps of the processes in which no file is read while it is written", "why_tests_cant": "tests start with an empty directory", "anchors": ["flee/coupling.py:446-540"]}
{"id": "C179", "title": "More rain does not shorten a link", "statement": "On a day with more precipitation a link with weather coupling is not shorter; it is never shorter than its given length and never longer than ten thousand times that.", "quantifier": "all links that are no river crossings, all tables of precipitation, all days", "why_tests_cant": "no test of the repository uses weather coupling", "anchors": ["flee/pmicro_flee.py:509-564"]}
{"id": "C180", "title": "Flooded links", "statement": "A link is flooded, that is ten thousand times as long, exactly if the precipitation is greater than or equal to the threshold X2.", "quantifier": "all links that are no river crossings, all tables of precipitation, all days", "why_tests_cant": "no test of the repository uses weather coupling", "anchors": ["flee/pmicro_flee.py:414-459", "flee/pmicro_flee.py:536-547"]}
{"id": "C181", "title": "Thresholds are percentiles", "statement": "The thresholds X1 and X2 divide the recorded precipitation of the place as its 15th and 75th percentiles, and X1 is at most X2.", "quantifier": "all tables of 40 years of precipitation, all midpoints", "why_tests_cant": "no test of the repository uses weather coupling", "anchors": ["flee/pmicro_flee.py:414-459"]}
{"id": "C182", "title": "Place of the thresholds", "statement": "The thresholds are computed from the records of the point of the table nearest to the midpoint of the link.", "quantifier": "all tables of 40 years of precipitation, all midpoints", "why_tests_cant": "no test of the repository uses weather coupling", "anchors": ["flee/pmicro_flee.py:441-454", "multiscale/precipitation.py:41-68"]}
{"id": "C183", "title": "Weather in both directions", "statement": "On each day a link with weather coupling is as long as the link in the other direction.", "quantifier": "all links of all types, all tables of weather, all days", "why_tests_cant": "no test of the repository uses weather coupling", "anchors": ["flee/pmicro_flee.py:126-188", "flee/pmicro_flee.py:509-564"]}
{"id": "C184", "title": "River crossings", "statement": "A river crossing has its given length while the level of the river at the nearest place of the table is below 8000, and is ten thousand times as long otherwise.", "quantifier": "all river crossings, all tables of levels, all days", "why_tests_cant": "no test of the repository uses weather coupling", "anchors": ["flee/pmicro_flee.py:280-290", "flee/pmicro_flee.py:487-505", "flee/pmicro_flee.py:524-533"]}
{"id": "C185", "title": "Multiplier of the precipitation program", "statement": "The multiplier returned by the program that prepares the precipitation is the one by which the simulation lengthens a link.", "quantifier": "all thresholds and precipitations", "why_tests_cant": "no test of the repository uses weather coupling", "anchors": ["multiscale/precipitation.py:167-206", "flee/pmicro_flee.py:536-547"]}
{"id": "C186", "title": "Months between two dates", "statement": "The list of months between two dates contains exactly the months from the one to the other, each once, in order.", "quantifier": "all pairs of dates", "why_tests_cant": "finitely many dates in a test", "anchors": ["multiscale/precipitation.py:155-164"]}
{"id": "C187", "title": "Ghost locations", "statement": "With a file of conflicts the macro model couples, besides the given locations, exactly the conflict locations from which no route leads away, and agents are only sent from them.", "quantifier": "all networks, all files of conflicts, all lists of coupled locations", "why_tests_cant": "no test of the repository has two locations with one name", "anchors": ["flee/coupling.py:123-198", "multiscale/run_mscale.py:422-427"]}
{"id": "C188", "title": "Conflict locations of the micro model", "statement": "With a file of conflicts the micro model takes in agents exactly at the given locations and at its conflict locations, and sends agents from the given locations only; the set-up fails exactly if a given name is no location.", "quantifier": "all networks, all files of conflicts, all lists of coupled locations", "why_tests_cant": "finitely many networks in a test", "anchors": ["flee/coupling.py:123-171", "flee/coupling.py:201-225", "multiscale/run_mscale.py:422-430"]}
{"id": "C189", "title": "Coupled models fit together", "statement": "After the set-up of the macro and the micro model each takes in the names that the other sends.", "quantifier": "all pairs of networks and files of conflicts", "why_tests_cant": "no test of the repository sets up two coupled models", "anchors": ["flee/coupling.py:123-225", "multiscale/run_mscale.py:422-430"]}
{"id": "C190", "title": "Log of the numbers exchanged", "statement": "The log of exchanged numbers has a line for each day, with the number of each location that was sent that day under the name of the location.", "quantifier": "all lists of coupled locations, all days, all numbers of agents", "why_tests_cant": "finitely many names and numbers in a test", "anchors": ["flee/coupling.py:546-651"]}
{"id": "C191", "title": "Results of several instances", "statement": "The table written for several instances of a coupled model has the means of their tables.", "quantifier": "all lists of tables", "why_tests_cant": "no test of the repository runs several instances", "anchors": ["flee/coupling.py:654-686"]}
{"id": "C192", "title": "Reader of the micro model", "statement": "The reader of the geography of the micro model stores the same network as the ordinary reader.", "quantifier": "all geographies", "why_tests_cant": "no test of the repository uses this reader", "anchors": ["flee/micro_InputGeography.py:93-197", "flee/InputGeography.py:408-575"]}
{"id": "C193", "title": "Empty lines in files of coupled models", "statement": "Comments and empty lines in the file of coupled locations and in the file of routes of the micro model are skipped, all other lines are read.", "quantifier": "all files", "why_tests_cant": "no test of the repository reads these files", "anchors": ["multiscale/run_mscale.py:25-36", "flee/micro_InputGeography.py:31-72"]}
{"id": "C194", "title": "Names are only labels", "statement": "If locations are given other names, different ones for different locations, in everything that is done, the simulation is the same with the other names: same journeys, numbers, scores and errors.", "quantifier": "all sequences of operations, all settings, all random numbers, all injective renamings", "why_tests_cant": "a relation between two runs; no test of the repository compares runs", "anchors": ["flee/flee.py:428-520", "flee/flee.py:1296-1810", "flee/moving.py:1-330", "flee/crawling.py:1-170"]}
{"id": "C195", "title": "Unit of length", "statement": "With lengths of links, speeds and softening in another unit of length, the simulation is the same with lengths in that unit, for settings without negative weights and links without negative lengths and powers of lengths as weights.", "quantifier": "all sequences of operations, all such settings, all random numbers, all factors", "why_tests_cant": "a relation between two runs; no test of the repository compares runs", "anchors": ["flee/flee.py:90-330", "flee/moving.py:1-330", "flee/crawling.py:1-170", "flee/scoring.py:1-130"]}
{"id": "C196", "title": "Attributes that no rule reads", "statement": "Attributes of agents other than age, gender and floodawareness do not influence the simulation, and those three do only if the rules that read them are on.", "quantifier": "all sequences of operations, all settings, all random numbers, all changes of attributes", "why_tests_cant": "a relation between two runs; no test of the repository compares runs", "anchors": ["flee/flee.py:42-330", "flee/moving.py:16-330"]}
{"id": "C197", "title": "Agents do not notice each other where there is room for all", "statement": "As long as no location has a capacity that counts, any number of agents can get from their state to another in some days if and only if each of them, simulated on its own in the same country, can get from its state to the other one; so groups of agents can be simulated apart, and the order of agents does not matter.", "quantifier": "all reachable states without effective capacities, all groups of agents, all numbers of days, all random numbers", "why_tests_cant": "a relation between the sets of possible results of different simulations, over all random numbers", "anchors": ["flee/flee.py:89-285", "flee/flee.py:1627-1700", "flee/moving.py:470-532", "flee/scoring.py:1-139", "flee/crawling.py:1-170"]}
{"id": "C198", "title": "Several processes can compute what one process can compute, and nothing else", "statement": "As long as no location has a capacity that counts and routes are not fixed, whatever the parallel program makes of the agents of all processes in some days, in one of its two known modes, the sequential program can make of the same agents for some random numbers; and, unless agents disappear in camps, the other way round; provided that all processes have the same populations of locations and that the sequential program can compute the weights for new agents.", "quantifier": "all numbers of processes, all reachable states without effective capacities, all numbers of days, all random numbers of the processes", "why_tests_cant": "relates every run of a parallel program to some run of a sequential one, and the other way round", "anchors": ["flee/pflee.py:Ecosystem.evolve", "flee/flee.py:Ecosystem.evolve"]}
{"id": "C199", "title": "Agents know nothing of places out of view", "statement": "If two countries look the same from a location along all walks within the awareness level of agents, where markers do not count, then agents there choose the same route with the same random numbers, whatever the countries are like elsewhere, unless routes are fixed; with awareness level 1 and no markers next to the location only the location, its links and its neighbours count.", "quantifier": "all pairs of well-formed countries, all locations, all agents, all awareness levels and settings without fixed routes, all random numbers", "why_tests_cant": "quantifies over all ways in which places out of view can change", "anchors": ["flee/moving.py:calculateLinkWeight", "flee/moving.py:selectRoute", "flee/moving.py:getEndPointScore"]}
{"id": "C200", "title": "Unconnected parts of a country do not influence each other", "statement": "Where no link connects the locations of a part with the others and they have no names in common, and routes are not fixed, the agents can get from their state to another in some days if and only if no agent changes parts, the agents of the part can do so when only they are simulated, and the other agents can do so when only they are simulated, even where capacities count.", "quantifier": "all reachable states, all parts without links to the rest, all numbers of days, all random numbers", "why_tests_cant": "a relation between the sets of possible results of different simulations, over all random numbers", "anchors": ["flee/flee.py:89-285", "flee/flee.py:1627-1700", "flee/moving.py:470-532", "flee/scoring.py:1-139", "flee/crawling.py:1-170"]}
{"id": "C201", "title": "Git's description of a commit is read back", "statement": "From the text by which git describes a commit, the program reads back the tag without the prefix, the number of commits since, the commit and whether there are changes, also where the tag has hyphens; nothing else is read as a tag, a bare commit gives no tag and seven characters of its name, and other texts give the version unknown with a message. The long style writes the description again.", "quantifier": "all tags without blanks, prefixes, numbers of commits, commits and marks; all texts with a hyphen", "why_tests_cant": "a statement about all texts, with tags that look like descriptions themselves", "anchors": ["flee/_version.py:217-305", "flee/_version.py:425-442", "flee/_version.py:445-474", "versioneer.py:1029-1117"]}
{"id": "C202", "title": "Versions tell commits apart", "statement": "Two commits whose tags have no plus sign and whose versions in the style of the package are the same have the same tag, the same number of commits since, both or neither have changes, and are the same commit unless the version is just the tag. A version has at most one plus sign if its tag has. A tagged commit without changes is called by its tag.", "quantifier": "all pairs of commits with tags without plus signs, all numbers and commits", "why_tests_cant": "injectivity of a text format over all tags, numbers and commits", "anchors": ["flee/_version.py:308-402", "flee/_version.py:405-474", "versioneer.py:1229-1399"]}
{"id": "C203", "title": "The version of an archive is a tag of its commit", "statement": "The version that is taken from the names of a commit in an archive is a tag with the prefix, the first in the order of a dictionary however git lists the names, or 0+unknown with a message.", "quantifier": "all lists of names, prefixes and commits", "why_tests_cant": "all lists of names in all orders", "anchors": ["flee/_version.py:162-213", "versioneer.py:974-1026"]}
{"id": "C204", "title": "The package and the program that installs it name the same version", "statement": "For the same file with the three values of an archive and the same answers of git, get_versions of the installed package and of the program that installs it return the same; a release keeps the version written into it.", "quantifier": "all contents of the file, all answers of git, all directories", "why_tests_cant": "two programs compared on all contents of a file and all surroundings", "anchors": ["flee/_version.py:20-48", "flee/_version.py:107-158", "flee/_version.py:477-520", "versioneer.py:335-360", "versioneer.py:1201-1215", "versioneer.py:1402-1475"]}
{"id": "C205", "title": "A time step raises no error", "statement": "With rules that need no attributes or tables, non-negative weights, a positive decay interval and a speed other than 0, a time step of a country whose links have positive lengths returns a result, whatever has happened before and whatever the random numbers; so does any number of time steps.", "quantifier": "all such settings, all histories, all countries, all random numbers, any number of days", "why_tests_cant": "a statement about all executions: an error may need an unlikely history", "anchors": ["flee/flee.py:130-285", "flee/flee.py:1631-1690", "flee/moving.py:17-435", "flee/moving.py:447-533", "flee/scoring.py:17-80"]}
{"id": "C206", "title": "Short roads are never slept on", "statement": "If all links are shorter than what agents travel in a day, all agents end their days in locations, and the numbers of agents of the locations add up to the number of agents.", "quantifier": "all settings, all histories in which links are made like that, all random numbers", "why_tests_cant": "an invariant of all histories", "anchors": ["flee/flee.py:203-285", "flee/flee.py:1631-1690"]}
{"id": "C207", "title": "Tests that count agents cannot fail by chance", "statement": "If some agents arrive at the first location every day and all links are shorter than what agents travel in a day, no day raises an error and at the end the numbers of agents of the locations add up to the arrivals; the test with one agent and the test of the toy country therefore pass for all random numbers, all numbers of days and all data.", "quantifier": "all such countries and settings, all lists of daily arrivals, all random numbers", "why_tests_cant": "each run of the tests is one sequence of random numbers", "anchors": ["tests/test_1_agent.py:12-45", "tests/test_toy_escape.py:10-60", "flee/flee.py:1753-1776"]}
{"id": "C208", "title": "The largest count and the days with data", "statement": "The maximum refugee count within a number of days is the largest count of the rows up to that day; a day counts as interpolated exactly if no row is for that day.", "quantifier": "all columns of increasing whole days, all days", "why_tests_cant": "all tables, with rows on, before and after the day", "anchors": ["flee/datamanager/handle_refugee_data.py:93-119", "flee/datamanager/DataTable.py:528-548"]}
{"id": "C209", "title": "Places that count nothing are not entered", "statement": "If the settings give places abroad, or camps, a weight of 0, agents that are elsewhere never go there as long as the place where they are has a road to another place that is worth something.", "quantifier": "all settings without softening and with plain rules, all histories, all countries, all random numbers, any number of days", "why_tests_cant": "the test is one country and one sequence of random numbers", "anchors": ["flee/scoring.py:17-80", "flee/moving.py:117-435", "flee/flee.py:203-285", "tests/test_moving.py:78-125"]}
{"id": "C210", "title": "A place that everyone leaves is empty at the end of the day", "statement": "If agents leave a place with certainty, and its roads are shorter than what agents travel in a day and lead to places that nobody leaves, then all agents that were in it are at the ends of the roads at the end of the day, deactivated if the camp there deactivates all; where nobody leaves or no road is open, numbers of agents change by arrivals only. The tests of the toy country, of camps that deactivate agents and of closed locations therefore pass for all random numbers, numbers of agents and numbers of days.", "quantifier": "all settings without floods and fixed routes and with a capacity buffer up to 1, all histories, all countries in which no camp has a limit, all random numbers in the unit interval", "why_tests_cant": "each run of the tests is one sequence of random numbers", "anchors": ["flee/flee.py:130-285", "flee/flee.py:1631-1690", "flee/moving.py:17-116", "tests/test_toy_escape.py:10-60", "tests/test_camp_sink.py:8-45", "tests/test_tiny_closure.py:8-50"]}
{"id": "C211", "title": "The program does not look ahead", "statement": "What a run of the program shows until its end does not depend on conflicts, flood levels, changes of type, closures and data that are given for later days, errors included; a longer run begins like a shorter one. The data are looked ahead at by one row only, because of interpolation.", "quantifier": "all programs, all pairs of inputs that agree until the end, all lengths of runs, all random numbers", "why_tests_cant": "a run is one input and one length", "anchors": ["runscripts/run.py:12-120", "flee/InputGeography.py:309-362", "flee/InputGeography.py:579-700", "flee/flee.py:879-937", "flee/datamanager/DataTable.py:330-551"]}
{"id": "C212", "title": "Camps deactivate agents with the probability given in the file of locations", "statement": "If camps are sinks and the file of locations gives a camp a deactivation probability of 1, all agents in the camp are deactivated at the end of the day.", "quantifier": "all programs, all files of locations, all random numbers, all days", "why_tests_cant": "the test sets the attribute as a number by a call, not by a file", "anchors": ["flee/flee.py:1680-1687", "flee/InputGeography.py:473-503", "docs/Simulation_settings_advanced.md:87", "tests/test_camp_sink.py:8-45"]}
{"id": "C213", "title": "In a run, a camp turns people away exactly when it holds as many as it has places", "statement": "docs/Simulation_settings_advanced.md:196 says that the attractiveness of a location is 0 when its occupancy is more than its capacity times capacity_scaling. In every run of the program, at the end of every day, a location that the file gives places repels everybody if and only if it holds at least that many people. If the program inserts the people of day 0 into the camps, their number is also taken off the capacity, so that they count twice, and a camp that is full on day 0 loses its limit.", "quantifier": "For every program, country, data table, random draws, day and location", "why_tests_cant": "The tests of capacity set it by hand and do not insert people on day 0", "anchors": ["flee/moving.py:155-197", "flee/spawning.py:301-309", "docs/Simulation_settings_advanced.md:195-196", "docs/Simulation_instance_construction.md:53-54"]}
{"id": "C214", "title": "Agents that avoid short stints take a break only after a full day's distance", "statement": "docs/Simulation_settings_advanced.md:189 says that with avoid_short_stints agents take a break only if they travelled at least a full day's distance in the last two days. In a country with open roads and no full camps, an agent that comes to a town during a day and is still there at the end of it has travelled, counting today in full, yesterday by a half, the day before by a quarter and so on, at least the distance of a full day. The last two days alone can be less.", "quantifier": "For every country, rules, random draws in [0,1), agent and day reached by the public operations", "why_tests_cant": "The tests do not switch the rule on and look at single days of single agents", "anchors": ["flee/flee.py:262-285", "flee/flee.py:1668-1673", "docs/Simulation_settings_advanced.md:189"]}
{"id": "C215", "title": "A run needs conflict tables that cover all its days", "statement": "A run of the program that reads conflicts from a file completes only if every column of that file has a value for each day of the run. On the first day without a value the program stops with an IndexError; the message that names the table and its length is not reached.", "quantifier": "For every program, country, conflict file, random draws and number of days", "why_tests_cant": "The tests run for fewer days than their tables have", "anchors": ["flee/InputGeography.py:676-682", "runscripts/run.py:77-92"]}
{"id": "C216", "title": "The chance to leave a place is the probability of leaving it", "statement": "Let the random numbers be independent and each one of N equally likely multiples of 1/N, as Python's are with N = 2^53. Then an agent that is in a place with open roads at the start of a time step and has no planned route leaves it in that time step with the chance of the place (its move chance scaled by its size) as probability, up to less than 1/N. Agents leave independently of each other, and of n agents in a place n times the chance leave on average.", "quantifier": "For every N, country without camp limits, state of a program, set of such agents and plain settings (no floods, awareness level above 0)", "why_tests_cant": "The tests run one sequence of random numbers, or draw numbers and compare averages loosely", "anchors": ["docs/Simulation_settings_advanced.md:159-170", "flee/flee.py:173-201", "flee/moving.py:327-436"]}
{"id": "C217", "title": "The share of a location in the spawn weights is the probability that a new agent starts there", "statement": "Let the random numbers be independent and each one of N equally likely multiples of 1/N. When the numbers of new agents are read from the data, each new agent of a day starts in a location with the share of the location in the spawn weights as probability, up to less than 1/N. New agents start independently of each other, and of n new agents n times that probability start in the location on average.", "quantifier": "For every N, country, data, day, spawn weights that are not negative and set of new agents", "why_tests_cant": "The tests draw a few locations; no test counts how often a location is chosen", "anchors": ["flee/flee.py:1604-1627", "flee/spawning.py:294-323"]}
{"id": "C218", "title": "The fates of agents are independent where there is room for all", "statement": "Let the random numbers be independent and each one of N equally likely multiples of 1/N. In a country without capacities that count, what becomes of the agents within any number of time steps is independent: the probability that every agent ends up as required is the product, over the agents, of the probabilities that the agent ends up as required when it is simulated on its own. If the time steps cannot fail, each agent is as likely to end up somewhere among the others as on its own, and the average number of agents that do is the sum of these probabilities.", "quantifier": "For every N, reachable country without capacities that count, non-empty list of agents, number of time steps and requirement on each agent", "why_tests_cant": "Tests run a simulation once with one sequence of random numbers; they cannot compare probabilities", "anchors": ["flee/flee.py:1631-1689", "flee/flee.py:160-276"]}
{"id": "C219", "title": "The share of a route in the weights is the probability that an agent takes it", "statement": "For candidate routes with non-negative weights, the probability that the chosen one has a given property is the sum over the candidates with that property of the fraction of random numbers in the interval of the candidate's share of the total weight; this fraction differs from the share by less than the distance of two random numbers. In every reachable state, with awareness of at least one step, no fixed routes, no floods and no limits to the capacity of camps, the probability that an agent in a place, without a planned route, sets out today for a neighbour is the chance to move of the place times the sum of these fractions over the routes that start with this neighbour.", "quantifier": "for all candidates and weights; for all reachable states, agents without a planned route and neighbours, and all numbers of values of the random number generator", "why_tests_cant": "A test would have to count over very many runs, and could only bound the deviation of a frequency", "anchors": ["flee/moving.py:282-325", "flee/moving.py:470-533", "flee/flee.py:130-199"]}
{"id": "C220", "title": "A separate file of totals replaces the totals of the data", "statement": "After override_input has been given a file, the arrivals that get_daily_difference reports for a day are the change in this file between the day before and the day, and not the change in the data on camps.", "quantifier": "for all tables of data, files, days after day 0 and ways of counting totals", "why_tests_cant": "No test calls override_input; a test with one file would not show what holds for all files and days", "anchors": ["flee/datamanager/DataTable.py:285-303", "flee/datamanager/DataTable.py:306-391"]}
{"id": "C221", "title": "Where a fraction of the remaining population flees every day, a population shrinks geometrically", "statement": "If people are taken from populations and the mode is pop_ratio, the population of every location falls on every day by the fraction of the settings of those who remain, without the part of a person. After n days with the same fraction x the population lies between (1-x)^n of the first population and this plus 1/x; fewer than 1/x inhabitants stay for ever.", "quantifier": "for all programs with conflict or flood driven spawning by fraction, rates that are not negative, locations, days, fractions up to 1 and draws", "why_tests_cant": "A test follows one population for a few days; the bounds after n days need an induction over the days for every rate and population", "anchors": ["flee/spawning.py:239-292", "flee/flee.py:1753-1776", "runscripts/run.py:70-80", "docs/Using_DFlee_For_Disaster_Driven_Displacement.md:26"]}
{"id": "C222", "title": "The time that agents stay in a place is geometrically distributed", "statement": "Where there is room for all, an agent that has no planned route has not left its place after n days with the probability (1-m)^n, where m is the chance of the place; of a group of agents the part (1-m)^n is left on average.", "quantifier": "for all reachable states with the usual rules, agents, places with open roads, numbers of days, numbers of values of a random number and settings", "why_tests_cant": "A test has one seed; the probability is about all streams of random numbers, and needs an induction over the days in which nothing but the random numbers of the agent counts", "anchors": ["flee/flee.py:160-201", "flee/flee.py:1631-1689", "flee/moving.py:327-347"]}
{"id": "C223", "title": "The number of days that an agent walks on a long link is binomially distributed", "statement": "Where there is room for all, an agent on a link whose end it cannot reach within n days walks on j of these days with the binomial probability of j successes out of n, and is then j walking speeds and n-j other speeds further; on average it advances by q walking speeds and 1-q other speeds a day, where q is the probability to walk on the link.", "quantifier": "for all reachable states with the usual rules, agents on links, numbers of days, numbers of values of a random number and settings", "why_tests_cant": "A test has one seed; the distribution is about all streams of random numbers, in which the agent's own numbers are mixed with those of all others", "anchors": ["flee/flee.py:203-245", "flee/flee.py:1631-1689"]}
{"id": "C224", "title": "Agents appear with the weights of the day", "statement": "Whenever agents are spawned from the data, each location has the weight that the documentation gives for this day: population times conflict intensity times the entry of conflict_spawn_decay for the number of days since its conflict began.", "quantifier": "for all programs with all input files, all days, settings without conflict-driven spawning, decay lists and intervals", "why_tests_cant": "test_csv and the spawning tests have no decay list, and no test compares the weights of a day with the clock; whether the weights are fresh depends on what else happens on the day", "anchors": ["runscripts/run.py:70-80", "flee/spawning.py:38-80", "flee/flee.py:1535-1582", "flee/flee.py:1631-1645", "flee/InputGeography.py:626-709", "docs/Simulation_settings_advanced.md:92-93"]}
{"id": "C225", "title": "Only documented keys of the settings decide a run", "statement": "Two files of settings that can be read and that agree on the keys named in the documentation give the same run of the program, errors included.", "quantifier": "for all settings files with any further content, all other input files, all random numbers", "why_tests_cant": "tests run with a handful of settings files and never vary a key that should have no influence", "anchors": ["flee/SimulationSettings.py:91-356", "runscripts/run.py:25-51", "docs/Simulation_settings_advanced.md:60-200", "docs/Simulation_settings_basic.md"]}
{"id": "C226", "title": "The settings of the page on floods give a simulation with floods", "statement": "The file of settings that docs/Using_DFlee_For_Disaster_Driven_Displacement.md asks for, with any numbers in its tables, can be read and gives a simulation in which floods drive the spawning with these tables of displaced fractions, move chances and location weights.", "quantifier": "for all tables; for the reasons of failure, for all settings files", "why_tests_cant": "the flood tests read their own settings file, which is not the one of the page", "anchors": ["docs/Using_DFlee_For_Disaster_Driven_Displacement.md:17-42", "flee/SimulationSettings.py:136-198", "flee/SimulationSettings.py:296-335", "flee/moving.py:349-356"]}
{"id": "C227", "title": "With fixed routes all agents take the same route between two places on a day", "statement": "docs/Simulation_settings_advanced.md:188 says that with fixed_routes all agents take the same route on a given day when travelling from A to B: any two agents that set out from one place on one day with the same destination have the same stops before them.", "quantifier": "for all networks, histories, numbers of agents, random numbers, awareness levels and powers, with and without major routes", "why_tests_cant": "tests with fixed routes look at tables of single places and not at pairs of agents", "anchors": ["docs/Simulation_settings_advanced.md:188", "flee/crawling.py:54-76", "flee/crawling.py:246-282", "flee/moving.py:486-532", "flee/flee.py:130-199"]}
{"id": "C228", "title": "Versions have the formats that are described for their styles", "statement": "Each of the six styles of versions writes a commit in the format that the description of its function gives, for commits with a tag and for commits without one. No style means pep440, and other names raise an exception.", "quantifier": "for all tags without plus signs, numbers of commits since, commits, with and without changes, and all names of styles", "why_tests_cant": "there are no tests of the formats, and the package itself only uses one of them", "anchors": ["flee/_version.py:315-442", "flee/_version.py:445-474"]}
{"id": "C229", "title": "Larger weight powers favour the better routes", "statement": "docs/Simulation_settings_advanced.md:199 says that with larger values of weight_power agents are more aggressive in dismissing suboptimal routes: with a larger power, the share of any set of best routes is at least as large, and routes that are left out stay left out.", "quantifier": "for all networks, agents, pairs of powers (and other increasing functions of which the second is steeper), sets of best routes and thresholds for leaving routes out", "why_tests_cant": "a comparison of two settings over all networks and all pairs of powers", "anchors": ["docs/Simulation_settings_advanced.md:199", "flee/moving.py:234-237", "flee/moving.py:447-466", "flee/moving.py:490-494", "flee/crawling.py:68-72"]}
{"id": "C230", "title": "More populous locations have scaled chances to leave", "statement": "docs/Simulation_settings_advanced.md:172-176: locations with the population movechance_pop_base keep their chances to leave; with a positive movechance_pop_scale_factor more populous locations have higher chances, and with a negative one lower chances.", "quantifier": "for all settings, locations, populations and capacities, and all powers that rise or fall as powers do", "why_tests_cant": "a comparison of two locations over all populations, capacities and settings", "anchors": ["docs/Simulation_settings_advanced.md:172-176", "flee/moving.py:341-346", "flee/SimulationSettings.py:278-279"]}
{"id": "C231", "title": "Settings that say no are off", "statement": "A setting that is on or off and is given as a text that says no in the settings file, such as 'False' in quotation marks, is off.", "quantifier": "for all settings files, all documented settings that are on or off and all values", "why_tests_cant": "a statement over all settings files and all keys; a test reads one file", "anchors": ["flee/SimulationSettings.py:15-23", "flee/SimulationSettings.py:131-150", "flee/SimulationSettings.py:240-294"]}
{"id": "C232", "title": "The rules of the first version are a shorthand", "statement": "A run with use_v1_rules turned on is the run with max_move_speed 200, start_on_foot and avoid_short_stints off, camp_weight 2 and conflict_weight 0.25, whatever else the settings file says about these.", "quantifier": "for all settings files, other files, random numbers and days", "why_tests_cant": "an equality of whole runs for all files and random numbers", "anchors": ["flee/SimulationSettings.py:344-352", "flee/SimulationSettings.py:215-294", "runscripts/run.py:14-120"]}
{"id": "C233", "title": "Which settings files are accepted", "statement": "A settings file whose sections are sections is read without an error exactly if all keys for numbers have numbers (or texts with numbers), spawning is not restricted to conflict zones and flood zones at once, and flood-driven spawning comes with taking agents from the population.", "quantifier": "for all settings files and all earlier settings", "why_tests_cant": "an equivalence over all settings files; tests read some of them", "anchors": ["flee/SimulationSettings.py:91-356", "flee/SimulationSettings.py:15-23"]}
{"id": "C234", "title": "Comparing the outputs of two simulations", "statement": "The outputs of two simulations with the same camps can be compared; the table has, for each camp and for all camps together, the number of people by which the second simulation is above the first, the opposite signs when the outputs are exchanged, and only zeros for an output and itself.", "quantifier": "for all lists of camps and all outputs of any length", "why_tests_cant": "a statement about all lists of camps and outputs; there is no test of the program", "anchors": ["flee/postprocessing/compare_out.py:9-71", "runscripts/run.py:53-64"]}
{"id": "C235", "title": "What is drawn of the logs of coupled models", "statement": "After a coupled run the days are drawn and, for each location that sends agents to other models, the numbers of agents that every instance has logged there.", "quantifier": "for all sets of coupled locations, all numbers of instances, all days and all numbers of agents", "why_tests_cant": "a statement about all sets of coupled locations and runs of any length; there is no test of the drawing of logs", "anchors": ["flee/coupling.py:713-743", "flee/coupling.py:891-929", "flee/coupling.py:623-651"]}
{"id": "C236", "title": "Errors in the figures for browsers", "statement": "The figures for browsers show for each day the differences of all camps per refugee in the data, and those that are left when all numbers of the simulation have been multiplied so that the totals agree; the second are zero if the camps have the same shares as in the data.", "quantifier": "for all lists of camps with readable names and all outputs of any length", "why_tests_cant": "a statement about all outputs; there is no test of the program", "anchors": ["flee/postprocessing/plotly_flee_output.py:163-239", "flee/postprocessing/plotly_flee_output.py:96-139", "flee/postprocessing/analysis.py:59-70"]}
{"id": "C237", "title": "The band and the mean drawn for many runs", "statement": "For each day the mean of all runs and a band from the 5th to the 90th percentile are drawn for a camp. All of them lie between the smallest and the largest number of a run; 5 percent of the runs lie below the band and 10 percent above it, up to one run; the mean lies within the band; the order of the runs has no influence; and if all runs agree the mean and the band are their number.", "quantifier": "for all numbers of runs, all numbers of days, all camps and all numbers of people", "why_tests_cant": "a statement about any number of runs; there is no test of the program", "anchors": ["flee/postprocessing/plot_flee_forecast.py:86-103", "flee/postprocessing/plot_flee_forecast.py:156-171"]}
{"id": "C238", "title": "Which runs of a forecast belong to a region", "statement": "For a region those runs are used whose folders begin with its name, in their order.", "quantifier": "for all names of regions and all lists of output files", "why_tests_cant": "a statement about all paths and names; there is no test of the program", "anchors": ["flee/postprocessing/plot_flee_forecast.py:71-80"]}
{"id": "C239", "title": "The error of several runs", "statement": "The errors that are printed for several runs of the same crisis are the means of the errors of the runs, whatever their order.", "quantifier": "for all numbers of camps, days and runs and all contents of the output files", "why_tests_cant": "a statement about all sets of runs; there is no test of the program, and an example in which all runs are too high would not show the difference", "anchors": ["flee/postprocessing/plot_flee_uq_output.py:541-714"]}
{"id": "C240", "title": "Figures that compare simulations", "statement": "When several simulations of a conflict are compared, a figure is made for every camp, with the curve of the data and the curves of all simulations.", "quantifier": "for all names of camps, all numbers of simulations and all contents of the output files", "why_tests_cant": "a statement about all names and files; there is no test of the program, and examples with names of one word would not show what happens to others", "anchors": ["flee/postprocessing/plot_flee_compare.py:114-175"]}
{"id": "C241", "title": "The colours of the locations are in their order", "statement": "The list of colours for a map is ordered in the same way as the list of locations: the colour at each position is that of the location at this position.", "quantifier": "for all files of locations whose cells can be read", "why_tests_cant": "a statement about all files; examples with different names would not show what happens to equal ones", "anchors": ["flee/InputGeography.py:193-241"]}
{"id": "C242", "title": "What the colours of the locations mean", "statement": "The colour of a location in the map says as what it enters the simulation: as a camp, a conflict zone, a town, and so on.", "quantifier": "for all texts given as types", "why_tests_cant": "a statement about all texts; the simulation looks for words inside a type, the map compares whole types", "anchors": ["flee/InputGeography.py:211-241", "flee/flee.py:358-385"]}
{"id": "C243", "title": "From which file major routes are read", "statement": "Major routes are read from the file in the folder of the file of links whose name is that of the file of links after major_. Two files of links never share a file of major routes, and none is its own.", "quantifier": "for all paths", "why_tests_cant": "a statement about all paths, with any number of folders, empty parts and parts that begin with major_ themselves", "anchors": ["flee/InputGeography.py:245-248", "flee/InputGeography.py:306"]}
{"id": "C244", "title": "The log of agents can be read as a table", "statement": "Split at commas, each line of the log of agents has as many cells as the heading, and below each name in the heading stands the value with that name, whenever the agent has the attributes of the agent after which the heading was made.", "quantifier": "for all texts, and all lists of attributes", "why_tests_cant": "a statement about all names of places and all names and values of attributes; tests have names without commas", "anchors": ["flee/Diagnostics.py:13-46", "flee/Diagnostics.py:72-76", "flee/Diagnostics.py:99-115"]}
