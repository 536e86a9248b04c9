import Verif.Spec.Version

/-!
Specification vocabulary for the formats of versions, as their descriptions in /repo/flee/_version.py give them.
-/

namespace Flee.Spec

/-- The part of a format between brackets. -/
def only (b : Bool) (t : List Char) : List Char := if b then t else []

/-- The format that is described for commits with a tag. The brackets of `pep440-pre` and `git-describe` are there for a commit that is not
the tagged one, the inner brackets and the last ones for changes, the other ones for either. -/
def taggedFormat (style : String) (tag number hex : List Char) (later dirty : Bool) : Option (List Char) :=
  match style with
  | "pep440" => -- TAG[+DISTANCE.gHEX[.dirty]]
    some (tag ++ only (later || dirty) ("+".toList ++ number ++ ".g".toList ++ hex ++ only dirty ".dirty".toList))
  | "pep440-pre" => -- TAG[.post.devDISTANCE]
    some (tag ++ only later (".post.dev".toList ++ number))
  | "pep440-post" => -- TAG[.postDISTANCE[.dev0]+gHEX]
    some (tag ++ only (later || dirty) (".post".toList ++ number ++ only dirty ".dev0".toList ++ "+g".toList ++ hex))
  | "pep440-old" => -- TAG[.postDISTANCE[.dev0]]
    some (tag ++ only (later || dirty) (".post".toList ++ number ++ only dirty ".dev0".toList))
  | "git-describe" => -- TAG[-DISTANCE-gHEX][-dirty]
    some (tag ++ only later ("-".toList ++ number ++ "-g".toList ++ hex) ++ only dirty "-dirty".toList)
  | "git-describe-long" => -- TAG-DISTANCE-gHEX[-dirty]
    some (tag ++ "-".toList ++ number ++ "-g".toList ++ hex ++ only dirty "-dirty".toList)
  | _ => none

/-- The format that is described for commits without a tag. -/
def untaggedFormat (style : String) (number hex : List Char) (dirty : Bool) : Option (List Char) :=
  match style with
  | "pep440" => -- 0+untagged.DISTANCE.gHEX[.dirty]
    some ("0+untagged.".toList ++ number ++ ".g".toList ++ hex ++ only dirty ".dirty".toList)
  | "pep440-pre" => -- 0.post.devDISTANCE
    some ("0.post.dev".toList ++ number)
  | "pep440-post" => -- 0.postDISTANCE[.dev0]
    some ("0.post".toList ++ number ++ only dirty ".dev0".toList)
  | "pep440-old" => -- 0.postDISTANCE[.dev0]
    some ("0.post".toList ++ number ++ only dirty ".dev0".toList)
  | "git-describe" => -- HEX[-dirty]
    some (hex ++ only dirty "-dirty".toList)
  | "git-describe-long" => -- HEX[-dirty]
    some (hex ++ only dirty "-dirty".toList)
  | _ => none

/-- The described format of a commit. -/
def describedFormat (style : String) (tag : Option (List Char)) (number hex : List Char) (later dirty : Bool) : Option (List Char) :=
  match tag with
  | some tag => taggedFormat style tag number hex later dirty
  | none => untaggedFormat style number hex dirty

end Flee.Spec
