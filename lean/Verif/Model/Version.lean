import Verif.Model.Acled

/-!
How the package finds out which version of the code it is. Models /repo/flee/_version.py, of which
/repo/flee/postprocessing/_version.py is a copy, and the functions of the same names in /repo/versioneer.py.
-/

namespace Flee

/-- What is known about a commit. Models: the dictionary `pieces` without the key `error`, /repo/flee/_version.py:250-303. -/
structure Pieces where
  long : List Char
  short : List Char
  closestTag : Option (List Char)
  distance : Nat
  dirty : Bool
  date : List Char
deriving DecidableEq, Repr

/-- What is answered. Models: the dictionaries returned at /repo/flee/_version.py:119-121, 204-207, 211-213, 448-452, 472-474,
501-504 and 518-520. -/
structure Version where
  version : List Char
  revision : Option (List Char)
  dirty : Option Bool
  error : Option (List Char)
  date : Option (List Char)
deriving DecidableEq, Repr

/-- Models: `replace(" ", new, 1)`, /repo/flee/_version.py:174. -/
def replaceBlank (new : List Char) : List Char → List Char
  | [] => []
  | ch :: t => if ch = ' ' then new ++ t else ch :: replaceBlank new t

/-- Models: the date of a commit, /repo/flee/_version.py:174 and 303. -/
def commitDate (t : List Char) : List Char := replaceBlank [] (replaceBlank ['T'] (stripText t))

/-- Models: `r[len(p):] if r.startswith(p)`, /repo/flee/_version.py:118-119, 184, 200-201 and 278-285. -/
def afterPrefix (p t : List Char) : Option (List Char) := if p.isPrefixOf t then some (t.drop p.length) else none

/-! ### Reading the description that git gives -/

/-- Models: `[0-9a-f]`, /repo/flee/_version.py:269. -/
def hexChar (ch : Char) : Bool := ('0' ≤ ch && ch ≤ '9') || ('a' ≤ ch && ch ≤ 'f')

/-- Models: `re.search(r'^(.+)-(\d+)-g([0-9a-f]+)$', …)`, /repo/flee/_version.py:269. The last group has no hyphen and neither has the
second, so that the text is cut at its last two hyphens. Simplifications: digits of ASCII only; the text does not end with a line
break, as it has been stripped. -/
def describeMatch (t : List Char) : Option (List Char × Nat × List Char) :=
  let r := t.reverse
  let last := (r.takeWhile (· ≠ '-')).reverse
  let r := (r.dropWhile (· ≠ '-')).drop 1
  let digits := (r.takeWhile (· ≠ '-')).reverse
  let r := r.dropWhile (· ≠ '-')
  match r, last with
  | '-' :: more, 'g' :: hex =>
    if more ≠ [] ∧ '\n' ∉ more ∧ hex ≠ [] ∧ hex.all hexChar ∧ digits ≠ [] then
      (digitsOf 0 digits).map fun k => (more.reverse, k, hex)
    else none
  | _, _ => none

/-- What git answers. Models: the calls of `run_command`, /repo/flee/_version.py:228-303; `none` for an answer of `None`. The fields are
whether there is a repository, the description, the commit, the number of commits and the date. -/
structure GitAnswers where
  inside : Bool
  describe : Option (List Char)
  head : Option (List Char)
  count : Option (List Char)
  date : Option (List Char)
deriving DecidableEq, Repr

/-- Models: the test for the suffix, /repo/flee/_version.py:260-263. -/
def dirtyCut (t : List Char) : List Char × Bool :=
  if "-dirty".toList.isSuffixOf t then (t.take (t.length - 6), true) else (t, false)

/-- Models: /repo/flee/_version.py:301-303, the date of the commit; `None.strip()` raises AttributeError. -/
def gitDate (g : GitAnswers) : Except Err (List Char) :=
  match g.date with
  | some t => .ok (commitDate t)
  | none => .error .attributeError

/-- Models: `git_pieces_from_vcs`, /repo/flee/_version.py:217-305. The outer `none` stands for NotThisMethod; on the left are the commit and
the error message of pieces with an error. -/
def gitPieces (tagPrefix : List Char) (g : GitAnswers) : Except Err (Option (List Char × List Char ⊕ Pieces)) :=
  if ¬ g.inside then .ok none
  else match g.describe, g.head with
    | none, _ => .ok none
    | _, none => .ok none
    | some described, some head => do
      let described := stripText described
      let long := stripText head
      let (text, dirty) := dirtyCut described
      if '-' ∈ text then
        match describeMatch text with
        | none => return some (.inl (long, "unable to parse git-describe output: '".toList ++ described ++ ['\'']))
        | some (fullTag, distance, short) =>
          match afterPrefix tagPrefix fullTag with
          | none => return some (.inl (long, "tag '".toList ++ fullTag ++ "' doesn't start with prefix '".toList ++ tagPrefix ++ ['\'']))
          | some tag => return some (.inr ⟨long, short, some tag, distance, dirty, ← gitDate g⟩)
      else
        match g.count with
        | none => .error .typeError
        | some count => do
          let distance ← naturalText count
          return some (.inr ⟨long, long.take 7, none, distance, dirty, ← gitDate g⟩)

/-! ### Writing a version -/

/-- Models: `"%d" % n`, /repo/flee/_version.py:328. -/
def numberText (n : Nat) : List Char := decimalText (n + 1) n

/-- Models: `if pieces["closest-tag"]`, /repo/flee/_version.py:324: `None` and the empty text count as no tag. -/
def Pieces.tag? (p : Pieces) : Option (List Char) := p.closestTag.filter (· ≠ [])

/-- Models: `plus_or_dot`, /repo/flee/_version.py:308-312. -/
def plusOrDot (tag : List Char) : List Char := if '+' ∈ tag then ['.'] else ['+']

/-- Models: `render_pep440`, /repo/flee/_version.py:315-337. -/
def renderPep440 (p : Pieces) : List Char :=
  match p.tag? with
  | some tag =>
    if p.distance ≠ 0 ∨ p.dirty then
      tag ++ plusOrDot tag ++ numberText p.distance ++ ".g".toList ++ p.short ++ (if p.dirty then ".dirty".toList else [])
    else tag
  | none => "0+untagged.".toList ++ numberText p.distance ++ ".g".toList ++ p.short ++ (if p.dirty then ".dirty".toList else [])

/-- Models: `render_pep440_pre`, /repo/flee/_version.py:340-353. -/
def renderPep440Pre (p : Pieces) : List Char :=
  match p.tag? with
  | some tag => if p.distance ≠ 0 then tag ++ ".post.dev".toList ++ numberText p.distance else tag
  | none => "0.post.dev".toList ++ numberText p.distance

/-- Models: `render_pep440_post`, /repo/flee/_version.py:356-380. -/
def renderPep440Post (p : Pieces) : List Char :=
  match p.tag? with
  | some tag =>
    if p.distance ≠ 0 ∨ p.dirty then
      tag ++ ".post".toList ++ numberText p.distance ++ (if p.dirty then ".dev0".toList else []) ++ plusOrDot tag ++ 'g' :: p.short
    else tag
  | none => "0.post".toList ++ numberText p.distance ++ (if p.dirty then ".dev0".toList else []) ++ "+g".toList ++ p.short

/-- Models: `render_pep440_old`, /repo/flee/_version.py:383-402. -/
def renderPep440Old (p : Pieces) : List Char :=
  match p.tag? with
  | some tag =>
    if p.distance ≠ 0 ∨ p.dirty then
      tag ++ ".post".toList ++ numberText p.distance ++ (if p.dirty then ".dev0".toList else [])
    else tag
  | none => "0.post".toList ++ numberText p.distance ++ (if p.dirty then ".dev0".toList else [])

/-- Models: `render_git_describe`, /repo/flee/_version.py:405-422. -/
def renderDescribe (p : Pieces) : List Char :=
  (match p.tag? with
    | some tag => if p.distance ≠ 0 then tag ++ '-' :: numberText p.distance ++ "-g".toList ++ p.short else tag
    | none => p.short) ++ (if p.dirty then "-dirty".toList else [])

/-- Models: `render_git_describe_long`, /repo/flee/_version.py:425-442. -/
def renderDescribeLong (p : Pieces) : List Char :=
  (match p.tag? with
    | some tag => tag ++ '-' :: numberText p.distance ++ "-g".toList ++ p.short
    | none => p.short) ++ (if p.dirty then "-dirty".toList else [])

/-- Models: the choice of the style, /repo/flee/_version.py:454-470. -/
def renderStyle (style : String) (p : Pieces) : Except Err (List Char) :=
  let style := if style = "" ∨ style = "default" then "pep440" else style
  if style = "pep440" then .ok (renderPep440 p)
  else if style = "pep440-pre" then .ok (renderPep440Pre p)
  else if style = "pep440-post" then .ok (renderPep440Post p)
  else if style = "pep440-old" then .ok (renderPep440Old p)
  else if style = "git-describe" then .ok (renderDescribe p)
  else if style = "git-describe-long" then .ok (renderDescribeLong p)
  else .error .valueError

/-- Models: `render`, /repo/flee/_version.py:445-474. -/
def renderVersion (style : String) : List Char × List Char ⊕ Pieces → Except Err Version
  | .inl (long, message) => .ok ⟨"unknown".toList, some long, none, some message, none⟩
  | .inr p => do return ⟨← renderStyle style p, some p.long, some p.dirty, none, some p.date⟩

/-! ### Names of a commit in an archive -/

/-- What git writes into the file when it makes an archive. Models: the dictionary `keywords`, /repo/flee/_version.py:20-30 and 133-158,
from which keys may be missing. -/
structure Keywords where
  refnames : Option (List Char)
  full : Option (List Char)
  date : Option (List Char)
deriving DecidableEq, Repr

/-- Models: `strip("()")`, /repo/flee/_version.py:180. -/
def stripParens (t : List Char) : List Char :=
  ((t.dropWhile fun ch => ch = '(' || ch = ')').reverse.dropWhile fun ch => ch = '(' || ch = ')').reverse

/-- The order of texts. Models: the comparison of texts by `sorted`, /repo/flee/_version.py:198. -/
def textLe : List Char → List Char → Bool
  | [], _ => true
  | _ :: _, [] => false
  | a :: s, b :: t => if a = b then textLe s t else a.toNat < b.toNat

/-- Models: `sorted(tags)`, /repo/flee/_version.py:198. Simplification: a text that is there several times stays there several times. -/
def sortTexts : List (List Char) → List (List Char)
  | [] => []
  | t :: ts => insertText t (sortTexts ts)
where
  /-- Models: the place of a text among sorted texts, /repo/flee/_version.py:198. -/
  insertText (t : List Char) : List (List Char) → List (List Char)
    | [] => [t]
    | u :: us => if textLe t u then t :: u :: us else u :: insertText t us

/-- Models: the likely tags, /repo/flee/_version.py:180-193. -/
def likelyTags (refnames : List Char) : List (List Char) :=
  let refs := (splitText ',' (stripParens refnames)).map stripText
  let tags := refs.filterMap (afterPrefix "tag: ".toList)
  if tags = [] then refs.filter fun r => r.any fun ch => '0' ≤ ch && ch ≤ '9' else tags

/-- Models: `git_versions_from_keywords`, /repo/flee/_version.py:162-213; `none` stands for NotThisMethod. -/
def keywordVersion (tagPrefix : List Char) (k : Keywords) : Except Err (Option Version) :=
  if k = ⟨none, none, none⟩ then .ok none
  else match k.refnames with
    | none => .error .keyError
    | some refnames =>
      let refnames := stripText refnames
      if "$Format".toList.isPrefixOf refnames then .ok none
      else match (sortTexts (likelyTags refnames)).findSome? (afterPrefix tagPrefix), k.full with
        | _, none => .error .keyError
        | some tag, some full => .ok (some ⟨tag, some (stripText full), some false, none, k.date.map commitDate⟩)
        | none, some full => .ok (some ⟨"0+unknown".toList, some (stripText full), some false, some "no suitable tags".toList, none⟩)

/-- Models: `re.search(r'=\s*"(.*)"', line)`, /repo/flee/_version.py:144, 148 and 152, on a line without its line break. -/
def quotedText : List Char → Option (List Char)
  | [] => none
  | ch :: t =>
    if ch = '=' then
      match t.dropWhile blankChar with
      | '"' :: u => if '"' ∈ u then some ((u.reverse.dropWhile (· ≠ '"')).drop 1).reverse else quotedText t
      | _ => quotedText t
    else quotedText t

/-- Models: one line of the file, /repo/flee/_version.py:143-154. -/
def readKeyword (k : Keywords) (line : List Char) : Keywords :=
  let starts (p : String) := p.toList.isPrefixOf (stripText line)
  let k := if starts "git_refnames =" then { k with refnames := (quotedText line).or k.refnames } else k
  let k := if starts "git_full =" then { k with full := (quotedText line).or k.full } else k
  if starts "git_date =" then { k with date := (quotedText line).or k.date } else k

/-- Models: `git_get_keywords`, /repo/flee/_version.py:133-158; `none` for a file that cannot be read. -/
def readKeywords (lines : Option (List (List Char))) : Keywords := (lines.getD []).foldl readKeyword ⟨none, none, none⟩

/-! ### Name of a directory, and the choice among the sources -/

/-- Models: `versions_from_parentdir`, /repo/flee/_version.py:107-129. A path is the list of its names, the innermost first; the name of the
root of the file system is empty, and so is that of the directory above it. -/
def parentVersion (dirPrefix : List Char) (path : List (List Char)) : Option Version :=
  [path.headD [], (path.drop 1).headD [], (path.drop 2).headD []].findSome? fun name =>
    (afterPrefix dirPrefix name).map fun v => ⟨v, none, some false, none, none⟩

/-- Models: the last answer, /repo/flee/_version.py:518-520. -/
def noVersion (message : String) : Version := ⟨"0+unknown".toList, none, none, some message.toList, none⟩

/-- Where the code is. Models: the surroundings of `get_versions`, /repo/flee/_version.py:477-520: the texts in the file, the path of the file if
it is known, and what git answers there. -/
structure Checkout where
  keywords : Keywords
  file : Option (List (List Char))
  git : GitAnswers

/-- Models: `get_versions`, /repo/flee/_version.py:477-520, with the settings of `get_config`, 37-48. -/
def packageVersion (x : Checkout) : Except Err Version := do
  match ← keywordVersion [] x.keywords with
  | some v => return v
  | none =>
    match x.file with
    | none => return noVersion "unable to find root of source tree"
    | some file =>
      match ← gitPieces [] x.git with
      | some p => renderVersion "pep440" p
      | none => return (parentVersion "None".toList (file.drop 2)).getD (noVersion "unable to compute version")

/-- Models: `get_versions`, /repo/versioneer.py:1402-1475, with the settings of /repo/setup.cfg:1-7, which name no directory. `lines` are those of
the file /repo/flee/_version.py, and `written` is the version in it if a release was made from it, /repo/versioneer.py:1201-1215. -/
def setupVersion (lines : Option (List (List Char))) (written : Option Version) (g : GitAnswers) : Except Err Version := do
  match ← keywordVersion [] (readKeywords lines) with
  | some v => return v
  | none =>
    match written with
    | some v => return v
    | none =>
      match ← gitPieces [] g with
      | some p => renderVersion "pep440" p
      | none => return noVersion "unable to compute version"

end Flee
