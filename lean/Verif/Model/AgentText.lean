import Verif.Model.Coupling

/-!
The text of the log of agents. Models parts of /repo/flee/Diagnostics.py.
-/

namespace Flee

/-- Texts, each followed by a comma. Models: `print_attribute_keys` and `print_attribute_values`, /repo/flee/Diagnostics.py:13-46, for the
names and the values of the attributes as texts. -/
def withCommas (ts : List (List Char)) : List Char := ts.flatMap fun t => t ++ [',']

/-- The heading of the log, for an agent with the given names and values of attributes. Models: /repo/flee/Diagnostics.py:72-76. -/
def agentHeading (first : List (List Char × List Char)) : List Char :=
  "#time,rank-agentid,original_location,current_location,gps_x,gps_y,is_travelling,distance_travelled,".toList ++
    "places_travelled,distance_moved_this_timestep,".toList ++ withCommas (first.map (·.1))

/-- A line of the log. Models: /repo/flee/Diagnostics.py:99-115. Simplification: numbers are given as texts. -/
def agentLine (time rank number home place x y travelling travelled places moved : List Char) (attrs : List (List Char × List Char)) :
    List Char :=
  time ++ ',' :: (rank ++ '-' :: number) ++ ',' :: home ++ ',' :: place ++ ',' :: x ++ ',' :: y ++ ',' :: travelling ++
    ',' :: travelled ++ ',' :: places ++ ',' :: moved ++ ',' :: withCommas (attrs.map (·.2))

end Flee
