import Verif.Lemmas.Version

/-!
Versions of the code: C201, C202, C203 and C204.
-/

namespace Flee

open Spec

/-- C201, reading. For every tag, number of commits, commit and prefix: from git's description of a commit the program reads back the tag without
the prefix, the number, the commit and whether there are changes, also if the tag contains hyphens or looks like a description itself. -/
theorem C201_read {pre tag described hex head date : List Char} {n : Nat} {dirty : Bool} {g : GitAnswers} (hi : g.inside = true)
    (hd : g.describe = some described) (hh : g.head = some head) (ht : g.date = some date)
    (h : Describes described (pre ++ tag) n hex dirty) (h0 : pre ++ tag ≠ []) (hu : Unspaced (pre ++ tag)) :
    ∃ p, gitPieces pre g = .ok (some (.inr p)) ∧ p.closestTag = some tag ∧ p.distance = n ∧ p.short = hex ∧ p.dirty = dirty :=
  ⟨_, gitPieces_tagged hi hd hh ht h h0 hu, rfl, rfl, rfl, rfl⟩

example : Describes "v1.0-2-gabc-14-g0123abc-dirty".toList ("v".toList ++ "1.0-2-gabc".toList) 14 "0123abc".toList true ∧
    Unspaced ("v".toList ++ "1.0-2-gabc".toList) :=
  ⟨⟨numberText 14, numberText_plain 14, hex_all.1 ⟨by decide, by decide⟩, .inl ⟨rfl, by decide⟩⟩, by unfold Unspaced; decide⟩

/-- C201, writing. If the tag is more than the prefix, then the long style gives the description back without the prefix. -/
theorem C201_back {pre tag described hex head date : List Char} {n : Nat} {dirty : Bool} {g : GitAnswers} (hi : g.inside = true)
    (hd : g.describe = some described) (hh : g.head = some head) (ht : g.date = some date)
    (h : Describes described (pre ++ tag) n hex dirty) (h0 : tag ≠ []) (hu : Unspaced (pre ++ tag)) :
    ∃ p v, gitPieces pre g = .ok (some p) ∧ renderVersion "git-describe-long" p = .ok v ∧ described = pre ++ v.version ∧
      v.dirty = some dirty ∧ v.error = none := by
  refine ⟨_, _, gitPieces_tagged hi hd hh ht h (by simp [h0]) hu, rfl, ?_, rfl, rfl⟩
  obtain ⟨_, _, hx, _⟩ := id h
  exact describes_inj h (describeLong rfl h0 hx)

example : ∃ p v, gitPieces "v".toList ⟨true, some "v1.0-rc-14-g0123abc-dirty".toList, some "0123abc4".toList, none, some "2021-01-01 10:00:00 +0000".toList⟩ =
    .ok (some p) ∧ renderVersion "git-describe-long" p = .ok v ∧ v.version = "1.0-rc-14-g0123abc-dirty".toList :=
  ⟨.inr ⟨"0123abc4".toList, "0123abc".toList, some "1.0-rc".toList, 14, true, "2021-01-01T10:00:00+0000".toList⟩, _, by decide +kernel, rfl, by decide +kernel⟩

/-- C201, commit and date. Whatever style is used, the answer names the commit that git gave, without the line break after it, and the day and the time
of the commit, with a letter T between them instead of a blank and no blank before the zone. -/
theorem C201_commit {pre commit day time zone : List Char} {g : GitAnswers} {p : Pieces} {style : String} {v : Version}
    (hh : g.head = some (commit ++ "\n".toList))
    (hd : g.date = some (day ++ " ".toList ++ time ++ " ".toList ++ zone ++ "\n".toList)) (hc : Unspaced commit) (h1 : Unspaced day)
    (h2 : Unspaced time) (h3 : Unspaced zone) (h4 : day ≠ []) (h5 : zone ≠ []) (h : gitPieces pre g = .ok (some (.inr p)))
    (hv : renderVersion style (.inr p) = .ok v) : v.revision = some commit ∧ v.date = some (day ++ "T".toList ++ time ++ zone) ∧
      v.dirty = some p.dirty ∧ v.error = none := by
  obtain ⟨e1, e2⟩ := gitPieces_rest hh hd h
  simp only [renderVersion, Except.bind_eq_ok, Except.pure_eq_ok] at hv
  obtain ⟨_, -, rfl⟩ := hv
  have e3 : stripText (commit ++ "\n".toList) = commit :=
    strip_line (fun ch hm => unspaced_char hc (List.mem_of_head? hm)) fun ch hm => unspaced_char hc (List.mem_of_getLast? hm)
  have e4 := commitDate_line h4 h5 h1 h2 h3
  have e5 : day ++ " ".toList ++ time ++ " ".toList ++ zone ++ "\n".toList = day ++ ' ' :: (time ++ ' ' :: zone) ++ ['\n'] := by simp
  rw [e5, e4] at e2
  rw [e3] at e1
  exact ⟨by rw [e1], by rw [e2]; simp, rfl, rfl⟩

example : ∃ p v, gitPieces [] ⟨true, some "1.0-14-g0123abc".toList, some "0123abc4\n".toList, none, some "2021-01-01 10:00:00 +0000\n".toList⟩ =
    .ok (some (.inr p)) ∧ renderVersion "pep440" (.inr p) = .ok v ∧ v.date = some "2021-01-01T10:00:00+0000".toList :=
  ⟨⟨"0123abc4".toList, "0123abc".toList, some "1.0".toList, 14, false, "2021-01-01T10:00:00+0000".toList⟩, _, by decide +kernel, rfl, rfl⟩

/-- C201, only descriptions. Where the pieces have a tag, the text of git consists of the prefix, that tag, digits for the number, the commit and
possibly the mark. -/
theorem C201_only {pre tag described : List Char} {g : GitAnswers} {p : Pieces} (hd : g.describe = some described) (hu : Unspaced described)
    (h : gitPieces pre g = .ok (some (.inr p))) (ht : p.closestTag = some tag) : ∃ digits, Numeral digits p.distance ∧ Hexadecimal p.short ∧
      Marked "-dirty" p.dirty (pre ++ tag ++ ['-'] ++ digits ++ ['-', 'g'] ++ p.short) described ∧ pre ++ tag ≠ [] := by
  obtain ⟨described', digits, text, h1, h2, h3, rfl, h5, h6⟩ := gitPieces_tag h ht
  rw [hd] at h1
  cases h1
  rw [unspaced_strip hu] at h5
  exact ⟨digits, h2, h3, h5, h6⟩

example : Unspaced "a-007-g12".toList ∧ ∃ p tag, gitPieces [] ⟨true, some "a-007-g12".toList, some "12".toList, none, some []⟩ = .ok (some (.inr p)) ∧
    p.closestTag = some tag :=
  ⟨by unfold Unspaced; decide, ⟨"12".toList, "12".toList, some "a".toList, 7, false, []⟩, "a".toList, by decide +kernel, rfl⟩

/-- C201, without tags. If git gives just a commit, then there is no tag, the number is that of all commits, and the commit is written with the first
seven characters of its name, however many git wrote. -/
theorem C201_untagged {pre described hex head date count : List Char} {n : Nat} {dirty : Bool} {g : GitAnswers} (hi : g.inside = true)
    (hd : g.describe = some described) (hh : g.head = some head) (ht : g.date = some date) (hc : g.count = some count)
    (h : Marked "-dirty" dirty hex described) (hx : Hexadecimal hex) (hn : Numeral count n) (hu : Unspaced head) :
    ∃ p v, gitPieces pre g = .ok (some (.inr p)) ∧ p.closestTag = none ∧ p.distance = n ∧ p.short = head.take 7 ∧ p.dirty = dirty ∧
      renderVersion "git-describe-long" (.inr p) = .ok v ∧ Marked "-dirty" dirty (head.take 7) v.version := by
  refine ⟨_, _, gitPieces_untagged hi hd hh ht hc h hx hn, rfl, rfl, by rw [unspaced_strip hu], rfl, rfl, ?_⟩
  dsimp only
  rw [renderDescribeLong, tag_none rfl, unspaced_strip hu]
  cases dirty
  · exact .inr ⟨rfl, by simp⟩
  · exact .inl ⟨rfl, by simp⟩

example : Marked "-dirty" true "0123abcd".toList "0123abcd-dirty".toList ∧ Hexadecimal "0123abcd".toList ∧ Numeral "17".toList 17 :=
  ⟨.inl ⟨rfl, by decide⟩, hex_all.1 ⟨by decide, by decide⟩, (numberText_plain 17).1⟩

/-- C201, other texts. A description with a hyphen that is none of these gives the version `unknown` together with a message and the commit. -/
theorem C201_other {pre text described head : List Char} {dirty : Bool} {g : GitAnswers} {style : String} (hi : g.inside = true)
    (hd : g.describe = some described) (hh : g.head = some head) (hu : Unspaced described) (hu' : Unspaced head)
    (hm : Marked "-dirty" dirty text described) (hl : ¬ "-dirty".toList <:+ text) (hy : '-' ∈ text)
    (hn : ∀ tag digits n hex, Numeral digits n → Hexadecimal hex → text ≠ pre ++ tag ++ ['-'] ++ digits ++ ['-', 'g'] ++ hex) :
    ∃ p v, gitPieces pre g = .ok (some p) ∧ renderVersion style p = .ok v ∧ v.version = "unknown".toList ∧ v.error ≠ none ∧
      v.revision = some head := by
  have hcut : dirtyCut described = (text, dirty) := by
    rcases hm with ⟨rfl, rfl⟩ | ⟨rfl, rfl⟩
    · exact dirtyCut_true text
    · unfold dirtyCut
      rw [if_neg (by rw [List.isSuffixOf_iff_suffix]; exact hl)]
  unfold gitPieces
  rw [if_neg (by simp [hi]), hd, hh]
  dsimp only
  rw [unspaced_strip hu, unspaced_strip hu', hcut]
  dsimp only
  rw [if_pos hy]
  cases hr : describeMatch text with
  | none => exact ⟨_, _, rfl, rfl, rfl, by simp, rfl⟩
  | some r =>
    obtain ⟨full, n, hex⟩ := r
    obtain ⟨digits, h1, h2, -, -, h5⟩ := describeMatch_iff.1 hr
    dsimp only
    cases ha : afterPrefix pre full with
    | none => exact ⟨_, _, rfl, rfl, rfl, by simp, rfl⟩
    | some tag =>
      rw [afterPrefix_some] at ha
      subst ha
      exact absurd h5 (hn tag digits n hex h1 h2)

example : Marked "-dirty" true "release-x".toList "release-x-dirty".toList ∧ ¬ "-dirty".toList <:+ "release-x".toList ∧
    ∀ tag digits n hex, Numeral digits n → Hexadecimal hex → "release-x".toList ≠ [] ++ tag ++ ['-'] ++ digits ++ ['-', 'g'] ++ hex := by
  refine ⟨.inl ⟨rfl, by decide⟩, by decide, fun tag digits n hex h1 h2 e => ?_⟩
  have hl := congrArg List.getLast? e
  rw [List.getLast?_append_of_ne_nil _ h2.1] at hl
  have : 'x' ∈ hex := List.mem_of_getLast? hl.symm
  exact absurd (h2.2 _ this) (by decide)

/-- C202, telling commits apart. For all commits whose tags have no plus sign: if two have the same version in the style that is used, then they have the
same tag, the same number of commits since, both or neither have changes, and they are the same commit, unless the version is just a tag. -/
theorem C202_apart {p q : Pieces} {v w : Version} (hp : ∀ tag, p.closestTag = some tag → tag ≠ [] ∧ '+' ∉ tag)
    (hq : ∀ tag, q.closestTag = some tag → tag ≠ [] ∧ '+' ∉ tag) (hsp : Hexadecimal p.short) (hsq : Hexadecimal q.short)
    (hv : renderVersion "pep440" (.inr p) = .ok v) (hw : renderVersion "pep440" (.inr q) = .ok w) (h : v.version = w.version) :
    p.closestTag = q.closestTag ∧ p.distance = q.distance ∧ p.dirty = q.dirty ∧
      (p.short = q.short ∨ (p.closestTag ≠ none ∧ p.distance = 0 ∧ p.dirty = false)) := by
  cases hv
  cases hw
  exact pep440_apart hp hq hsp hsq h

/-- A commit of the examples. -/
private def commit (tag : Option String) (n : Nat) (dirty : Bool) : Pieces :=
  ⟨"0123abc4".toList, "0123abc".toList, tag.map (·.toList), n, dirty, []⟩

example : (∀ tag, (commit (some "1.0") 3 true).closestTag = some tag → tag ≠ [] ∧ '+' ∉ tag) ∧ Hexadecimal (commit (some "1.0") 3 true).short :=
  ⟨by rintro tag h; cases h; decide, hex_all.1 ⟨by decide, by decide⟩⟩

/-- C202, tags with a plus sign. Tags with a plus sign have to be left out: such a tag can look like a version of another one. -/
theorem C202_plus_needed : ¬ ∀ {p q : Pieces} {v w : Version}, p.closestTag ≠ some [] → q.closestTag ≠ some [] → Hexadecimal p.short →
    Hexadecimal q.short → renderVersion "pep440" (.inr p) = .ok v → renderVersion "pep440" (.inr q) = .ok w → v.version = w.version →
    p.distance = q.distance := by
  intro h
  exact absurd (h (p := commit (some "1.0+3.g0123abc") 0 false) (q := commit (some "1.0") 3 false) (by decide) (by decide)
    (hex_all.1 ⟨by decide, by decide⟩) (hex_all.1 ⟨by decide, by decide⟩) rfl rfl (by decide +kernel)) (by decide)

/-- C202, tagged commits. A commit with a tag and without changes is called by its tag in all styles except the long one. -/
theorem C202_exact {p : Pieces} {tag : List Char} (ht : p.closestTag = some tag) (h0 : tag ≠ []) (hd : p.distance = 0) (hc : p.dirty = false)
    {style : String} (hs : style ∈ ["", "default", "pep440", "pep440-pre", "pep440-post", "pep440-old", "git-describe"]) :
    ∃ v, renderVersion style (.inr p) = .ok v ∧ v.version = tag ∧ v.dirty = some false ∧ v.error = none ∧ v.revision = some p.long := by
  have h1 : renderPep440 p = tag := by rw [renderPep440, tag_some ht h0]; simp [hd, hc]
  have h2 : renderPep440Pre p = tag := by rw [renderPep440Pre, tag_some ht h0]; simp [hd]
  have h3 : renderPep440Post p = tag := by rw [renderPep440Post, tag_some ht h0]; simp [hd, hc]
  have h4 : renderPep440Old p = tag := by rw [renderPep440Old, tag_some ht h0]; simp [hd, hc]
  have h5 : renderDescribe p = tag := by rw [renderDescribe, tag_some ht h0]; simp [hd, hc]
  have key : renderStyle style p = .ok tag := by
    simp only [List.mem_cons, List.not_mem_nil, or_false] at hs
    unfold renderStyle
    rcases hs with rfl | rfl | rfl | rfl | rfl | rfl | rfl <;> simp [h1, h2, h3, h4, h5]
  refine ⟨⟨tag, some p.long, some p.dirty, none, some p.date⟩, ?_, rfl, by rw [hc], rfl, rfl⟩
  rw [renderVersion, key]
  rfl

example : (commit (some "1.0") 0 false).closestTag = some "1.0".toList ∧ (commit (some "1.0") 0 false).distance = 0 := ⟨rfl, rfl⟩

/-- C202, local versions. A version has a plus sign if and only if its commit is not just a tagged one without changes or its tag has one, and it has no
second one unless the tag has. -/
theorem C202_plus {p : Pieces} {v : Version} (h0 : p.closestTag ≠ some []) (hs : Hexadecimal p.short) (hv : renderVersion "pep440" (.inr p) = .ok v) :
    v.version.count '+' = max ((p.closestTag.getD []).count '+') (if p.closestTag ≠ none ∧ p.distance = 0 ∧ p.dirty = false then 0 else 1) := by
  cases hv
  exact pep440_plus h0 hs

example : ∃ v, renderVersion "pep440" (.inr (commit (some "1.0+local") 2 true)) = .ok v ∧ v.version = "1.0+local.2.g0123abc.dirty".toList :=
  ⟨_, rfl, by decide +kernel⟩

/-- C202, what other styles hide. In the style `pep440-pre` neither the commit nor changes to it can be seen in the version, and in the style
`pep440-old` the commit cannot. -/
theorem C202_hidden {p q : Pieces} {v w : Version} (ht : p.closestTag = q.closestTag) (hd : p.distance = q.distance) :
    (renderVersion "pep440-pre" (.inr p) = .ok v → renderVersion "pep440-pre" (.inr q) = .ok w → v.version = w.version) ∧
    (p.dirty = q.dirty → renderVersion "pep440-old" (.inr p) = .ok v → renderVersion "pep440-old" (.inr q) = .ok w → v.version = w.version) := by
  have e : p.tag? = q.tag? := by rw [Pieces.tag?, Pieces.tag?, ht]
  constructor
  · intro h1 h2
    cases h1
    cases h2
    show renderPep440Pre p = renderPep440Pre q
    rw [renderPep440Pre, renderPep440Pre, e, hd]
  · intro hc h1 h2
    cases h1
    cases h2
    show renderPep440Old p = renderPep440Old q
    rw [renderPep440Old, renderPep440Old, e, hd, hc]

example : (commit (some "1.0") 2 true).closestTag = (commit (some "1.0") 2 false).closestTag ∧
    (commit (some "1.0") 2 true).distance = (commit (some "1.0") 2 false).distance := ⟨rfl, rfl⟩

/-- C203, in full: the version of an archive, unless there is an error message, is a tag of its commit, without the prefix. -/
def C203_claim : Prop := ∀ (pre t full : List Char) (names : List (List Char)) (k : Keywords) (v : Version),
  k.refnames = some t → ListsNames t names → k.full = some full → keywordVersion pre k = .ok (some v) → v.error = none → IsTag names (pre ++ v.version)

/-- C203 is false of the code: without a tag, the name of a branch is taken if it has a digit, together with what git writes before it. -/
theorem C203_false : ¬ C203_claim := by
  intro h
  have hl : ListsNames " (HEAD -> release-2)".toList ["HEAD -> release-2".toList] := by
    refine ⟨by decide, ?_, by decide⟩
    intro r hr
    rw [List.mem_singleton] at hr
    subst hr
    unfold TidyName
    decide
  have := h [] " (HEAD -> release-2)".toList "0123abc".toList ["HEAD -> release-2".toList] ⟨some " (HEAD -> release-2)".toList, some "0123abc".toList, none⟩
    _ rfl hl rfl (by rw [keywordVersion_listed rfl hl rfl]) (by decide +kernel)
  revert this
  unfold IsTag
  decide +kernel

/-- C203, partially: if the commit has a tag, then the version is one of its tags with the prefix, the first of them in the order of a dictionary; in particular it
does not depend on the order in which git lists the names. If there is no tag with the prefix, then the version is `0+unknown` with a message.
Missing from the full claim: commits without any tag, for which a name with a digit is taken. -/
theorem C203_partial {pre t full : List Char} {names : List (List Char)} {k : Keywords} (hk : k.refnames = some t) (h : ListsNames t names)
    (hf : k.full = some full) (hu : Unspaced full) {s : List Char} (hs : IsTag names s) :
    ∃ v, keywordVersion pre k = .ok (some v) ∧ v.revision = some full ∧
      ((v.error = none ∧ IsTag names (pre ++ v.version) ∧ ∀ u, IsTag names (pre ++ u) → Before v.version u) ∨
        (v.error ≠ none ∧ v.version = "0+unknown".toList ∧ ∀ u, ¬ IsTag names (pre ++ u))) := by
  refine ⟨_, keywordVersion_listed hk h hf, ?_⟩
  cases hr : (sortTexts (likelyTags (stripText t))).findSome? (afterPrefix pre) with
  | some tag =>
    obtain ⟨x, hx, h1, h2⟩ := findSome_least (sortTexts_sorted _) hr
    rw [mem_sortTexts, likelyTags_tags h hs] at hx
    rw [afterPrefix_some] at h1
    subst h1
    refine ⟨by rw [unspaced_strip hu], .inl ⟨rfl, hx, fun u hu => ?_⟩⟩
    have := h2 (pre ++ u) (mem_sortTexts.2 ((likelyTags_tags h hs).2 hu)) (by rw [afterPrefix_append]; simp)
    exact before_cancel pre (textLe_before.1 this)
  | none =>
    refine ⟨by rw [unspaced_strip hu], .inr ⟨by simp, rfl, fun u hu => ?_⟩⟩
    rw [List.findSome?_eq_none_iff] at hr
    have := hr (pre ++ u) (mem_sortTexts.2 ((likelyTags_tags h hs).2 hu))
    rw [afterPrefix_append] at this
    cases this

example : ListsNames " (HEAD -> master, tag: 2.0rc1, tag: 2.0, origin/master)".toList
    ["HEAD -> master".toList, "tag: 2.0rc1".toList, "tag: 2.0".toList, "origin/master".toList] ∧
    IsTag ["HEAD -> master".toList, "tag: 2.0rc1".toList, "tag: 2.0".toList, "origin/master".toList] "2.0".toList := by
  refine ⟨⟨by decide, ?_, by decide⟩, by unfold IsTag; decide⟩
  unfold TidyName
  decide

/-- C203, without tags: then the version is a listed name with the prefix and with a digit, the first such in the order of a dictionary, or else `0+unknown`. -/
theorem C203_branch {pre t full : List Char} {names : List (List Char)} {k : Keywords} (hk : k.refnames = some t) (h : ListsNames t names)
    (hf : k.full = some full) (hs : ∀ s, ¬ IsTag names s) :
    ∃ v, keywordVersion pre k = .ok (some v) ∧
      ((v.error = none ∧ pre ++ v.version ∈ names ∧ (∃ ch ∈ pre ++ v.version, ch ∈ "0123456789".toList) ∧
          ∀ u, pre ++ u ∈ names → (∃ ch ∈ pre ++ u, ch ∈ "0123456789".toList) → Before v.version u) ∨
        (v.error ≠ none ∧ v.version = "0+unknown".toList ∧ ∀ u, pre ++ u ∈ names → ∀ ch ∈ pre ++ u, ch ∉ "0123456789".toList)) := by
  refine ⟨_, keywordVersion_listed hk h hf, ?_⟩
  cases hr : (sortTexts (likelyTags (stripText t))).findSome? (afterPrefix pre) with
  | some tag =>
    obtain ⟨x, hx, h1, h2⟩ := findSome_least (sortTexts_sorted _) hr
    rw [mem_sortTexts, likelyTags_branches h hs] at hx
    rw [afterPrefix_some] at h1
    subst h1
    refine .inl ⟨rfl, hx.1, hx.2, fun u hu hd => ?_⟩
    have := h2 (pre ++ u) (mem_sortTexts.2 ((likelyTags_branches h hs).2 ⟨hu, hd⟩)) (by rw [afterPrefix_append]; simp)
    exact before_cancel pre (textLe_before.1 this)
  | none =>
    refine .inr ⟨by simp, rfl, fun u hu ch hc hd => ?_⟩
    rw [List.findSome?_eq_none_iff] at hr
    have := hr (pre ++ u) (mem_sortTexts.2 ((likelyTags_branches h hs).2 ⟨hu, ch, hc, hd⟩))
    rw [afterPrefix_append] at this
    cases this

example : ∀ s, ¬ IsTag ["HEAD -> master".toList, "origin/master".toList] s := by
  intro s h
  simp [IsTag] at h

/-- C203, commit and date: an archive is never said to have changes, it knows its commit, and its date if a version was found. -/
theorem C203_commit {pre t full day time zone : List Char} {names : List (List Char)} {k : Keywords} {v : Version} (hk : k.refnames = some t)
    (h : ListsNames t names) (hf : k.full = some full) (hu : Unspaced full)
    (hd : k.date = some (day ++ " ".toList ++ time ++ " ".toList ++ zone)) (h1 : Unspaced day) (h2 : Unspaced time) (h3 : Unspaced zone)
    (h4 : day ≠ []) (h5 : zone ≠ []) (hv : keywordVersion pre k = .ok (some v)) :
    v.dirty = some false ∧ v.revision = some full ∧ (v.error = none → v.date = some (day ++ "T".toList ++ time ++ zone)) := by
  rw [keywordVersion_listed hk h hf] at hv
  have e4 := commitDate_plain h4 h5 h1 h2 h3
  have e5 : day ++ " ".toList ++ time ++ " ".toList ++ zone = day ++ ' ' :: (time ++ ' ' :: zone) := by simp
  rw [e5] at hd
  cases hr : (sortTexts (likelyTags (stripText t))).findSome? (afterPrefix pre) with
  | some tag =>
    rw [hr] at hv
    cases hv
    exact ⟨rfl, by rw [unspaced_strip hu], fun _ => by rw [hd, Option.map_some, e4]; simp⟩
  | none =>
    rw [hr] at hv
    cases hv
    exact ⟨rfl, by rw [unspaced_strip hu], fun e => by cases e⟩

example : keywordVersion [] ⟨some " (tag: 1.0)".toList, some "0123abc".toList, some "2021-01-01 10:00:00 +0000".toList⟩ =
    .ok (some ⟨"1.0".toList, some "0123abc".toList, some false, none, some "2021-01-01T10:00:00+0000".toList⟩) := by decide +kernel

/-- C203, unexpanded texts: outside an archive no version is taken from the file. -/
theorem C203_unexpanded {pre more : List Char} {k : Keywords} (hk : k.refnames = some ("$Format".toList ++ more)) :
    keywordVersion pre k = .ok none := by
  unfold keywordVersion
  split
  · rfl
  · rw [hk]
    dsimp only
    refine if_pos ?_
    rw [List.isPrefixOf_iff_prefix]
    have e : ("$Format".toList ++ more).dropWhile blankChar = "$Format".toList ++ more := dropWhile_head fun ch hc => by
      rw [List.head?_append_of_ne_nil _ (by decide)] at hc
      cases hc; decide
    unfold stripText
    rw [e, List.reverse_append]
    have h1 : ∀ m : List Char, ∃ w, (m ++ "$Format".toList.reverse).dropWhile blankChar = w ++ "$Format".toList.reverse := by
      intro m
      induction m with
      | nil => exact ⟨[], by decide⟩
      | cons a m ih =>
        rw [List.cons_append, List.dropWhile_cons]
        split
        · exact ih
        · exact ⟨a :: m, rfl⟩
    obtain ⟨w, hw⟩ := h1 more.reverse
    rw [hw, List.reverse_append, List.reverse_reverse]
    exact ⟨w.reverse, rfl⟩

example : (⟨some "$Format:%d$".toList, some "$Format:%H$".toList, some "$Format:%ci$".toList⟩ : Keywords).refnames =
    some ("$Format".toList ++ ":%d$".toList) := by decide

/-- C204, in full: for the same files and the same answers of git, the program that installs the package and the installed package name the same version. -/
def C204_claim : Prop := ∀ (lines file : List (List Char)) (k : Keywords) (g : GitAnswers), KeywordFile lines k →
  setupVersion (some lines) none g = packageVersion ⟨k, some file, g⟩

private def fileLines (refnames : String) : List (List Char) :=
  ["    git_refnames = \"".toList ++ refnames.toList ++ ['"'], "    git_full = \"$Format:%H$\"".toList, "    git_date = \"$Format:%ci$\"".toList]

/-- A line that starts with this name and the sign gives it its value. -/
private theorem fileAssigns_of {lines : List (List Char)} {name : String} {x : List Char} {n : Nat} (hline : ∃ line ∈ lines, Assigns line name x)
    (hn : ∀ ch, (name.toList ++ " =".toList).head? = some ch → blankChar ch = false) (h0 : n = (name.toList ++ " =".toList).length)
    (hrest : ∀ line ∈ lines, (line.dropWhile blankChar).take n = name.toList ++ " =".toList → Assigns line name x) :
    FileAssigns lines name x := by
  refine ⟨hline, fun line hl => ?_⟩
  rintro ⟨blanks, more, hb, rfl⟩
  refine hrest _ hl ?_
  rw [List.append_assoc, List.append_assoc, List.dropWhile_append_of_pos fun ch hc => stripped_iff.2 (hb ch hc)]
  have hne : name.toList ++ " =".toList ≠ [] := by simp
  rw [← List.append_assoc, dropWhile_head, h0, List.take_left]
  intro ch hc
  rw [List.head?_append_of_ne_nil _ hne] at hc
  exact hn ch hc

private theorem fileLines_file (refnames : String) : KeywordFile (fileLines refnames)
    ⟨some refnames.toList, some "$Format:%H$".toList, some "$Format:%ci$".toList⟩ := by
  have a1 : Assigns ("    git_refnames = \"".toList ++ refnames.toList ++ ['"']) "git_refnames" refnames.toList :=
    ⟨"    ".toList, by decide, by simp⟩
  have a2 : Assigns "    git_full = \"$Format:%H$\"".toList "git_full" "$Format:%H$".toList := ⟨"    ".toList, by decide, by decide⟩
  have a3 : Assigns "    git_date = \"$Format:%ci$\"".toList "git_date" "$Format:%ci$".toList := ⟨"    ".toList, by decide, by decide⟩
  have start : ∀ n : Nat, n ≤ 14 → ((("    git_refnames = \"".toList ++ refnames.toList ++ ['"']).dropWhile blankChar).take n) = "git_refnames =".toList.take n := by
    intro n hn
    have : ("    git_refnames = \"".toList ++ refnames.toList ++ ['"']).dropWhile blankChar = "git_refnames =".toList ++ (" \"".toList ++ refnames.toList ++ ['"']) := by
      simp [blankChar]
    rw [this, List.take_append_of_le_length (by simpa using hn)]
  refine ⟨_, _, _, ?_, ?_, ?_, rfl⟩
  · refine fileAssigns_of (n := 14) ⟨_, by simp [fileLines], a1⟩ (by decide) (by decide) fun line hl => ?_
    simp only [fileLines, List.mem_cons, List.not_mem_nil, or_false] at hl
    rcases hl with rfl | rfl | rfl
    · exact fun _ => a1
    · exact fun e => absurd e (by decide)
    · exact fun e => absurd e (by decide)
  · refine fileAssigns_of (n := 10) ⟨_, by simp [fileLines], a2⟩ (by decide) (by decide) fun line hl => ?_
    simp only [fileLines, List.mem_cons, List.not_mem_nil, or_false] at hl
    rcases hl with rfl | rfl | rfl
    · exact fun e => absurd ((start 10 (by decide)).symm.trans e) (by decide)
    · exact fun _ => a2
    · exact fun e => absurd e (by decide)
  · refine fileAssigns_of (n := 10) ⟨_, by simp [fileLines], a3⟩ (by decide) (by decide) fun line hl => ?_
    simp only [fileLines, List.mem_cons, List.not_mem_nil, or_false] at hl
    rcases hl with rfl | rfl | rfl
    · exact fun e => absurd ((start 10 (by decide)).symm.trans e) (by decide)
    · exact fun e => absurd e (by decide)
    · exact fun _ => a3

/-- C204 is false of the code: the installed package looks for a directory whose name begins with the word `None`, which stands in its settings for the missing
name of the directory, and takes the rest of the name for the version. -/
theorem C204_false : ¬ C204_claim := by
  intro h
  have := h (fileLines "$Format:%d$") ["_version.py".toList, "flee".toList, "Nonesuch".toList, "home".toList] _ ⟨false, none, none, none, none⟩
    (fileLines_file _)
  revert this
  rw [setupVersion, readKeywords_file (fileLines_file "$Format:%d$").choose_spec.choose_spec.choose_spec.1
    (fileLines_file "$Format:%d$").choose_spec.choose_spec.choose_spec.2.1 (fileLines_file "$Format:%d$").choose_spec.choose_spec.choose_spec.2.2.1,
    ← (fileLines_file "$Format:%d$").choose_spec.choose_spec.choose_spec.2.2.2]
  decide +kernel

/-- C204, partially: they name the same version if git answers there, or if none of the three directories around the package has a name that begins with `None`.
Missing from the full claim: such directories without git. -/
theorem C204_partial {lines file : List (List Char)} {k : Keywords} {g : GitAnswers} (hk : KeywordFile lines k)
    (h : (g.inside = true ∧ g.describe ≠ none ∧ g.head ≠ none) ∨
      ∀ i name, 2 ≤ i → i < 5 → file[i]? = some name → ¬ "None".toList <+: name) :
    setupVersion (some lines) none g = packageVersion ⟨k, some file, g⟩ := by
  obtain ⟨refnames, full, date, h1, h2, h3, rfl⟩ := hk
  unfold setupVersion packageVersion
  rw [readKeywords_file h1 h2 h3]
  dsimp only
  cases hv : keywordVersion [] ⟨some refnames, some full, some date⟩ with
  | error e => rfl
  | ok r =>
    cases r with
    | some v => rfl
    | none =>
      simp only [bind, Except.bind]
      cases hp : gitPieces [] g with
      | error e => rfl
      | ok p =>
        cases p with
        | some p => rfl
        | none =>
          rcases h with ⟨g1, g2, g3⟩ | h
          · rcases gitPieces_none.1 hp with e | e | e
            · rw [g1] at e; cases e
            · exact absurd e g2
            · exact absurd e g3
          · have hnone : parentVersion "None".toList (file.drop 2) = none := by
              unfold parentVersion
              rw [List.findSome?_eq_none_iff]
              have key : ∀ i, 2 ≤ i → i < 5 → (afterPrefix "None".toList ((file.drop i).headD [])).map
                  (fun v => (⟨v, none, some false, none, none⟩ : Version)) = none := by
                intro i h2 h5
                rw [Option.map_eq_none_iff]
                cases ha : afterPrefix "None".toList ((file.drop i).headD []) with
                | none => rfl
                | some u =>
                  rw [afterPrefix_some] at ha
                  cases hd : file.drop i with
                  | nil => rw [hd] at ha; simp at ha
                  | cons a b =>
                    rw [hd] at ha
                    simp only [List.headD_cons] at ha
                    refine absurd ⟨u, ha.symm⟩ (h i a h2 h5 ?_)
                    have := congrArg List.head? hd
                    rwa [List.head?_drop] at this
              intro name hn
              simp only [List.mem_cons, List.not_mem_nil, or_false, List.drop_drop] at hn
              rcases hn with rfl | rfl | rfl
              · exact key 2 (by decide) (by decide)
              · exact key 3 (by decide) (by decide)
              · exact key 4 (by decide) (by decide)
            simp only [hnone]
            rfl

example : KeywordFile (fileLines " (HEAD -> master, tag: 2.0)") ⟨some " (HEAD -> master, tag: 2.0)".toList, some "$Format:%H$".toList, some "$Format:%ci$".toList⟩ ∧
    ∀ i name, 2 ≤ i → i < 5 → ["_version.py".toList, "flee".toList, "flee".toList, "home".toList][i]? = some name → ¬ "None".toList <+: name := by
  refine ⟨fileLines_file _, fun i name h2 h5 h => ?_⟩
  interval_cases i <;> simp at h <;> subst h <;> decide

/-- C204, releases: from a file with a written version and without the three values, the program that installs the package takes that version. -/
theorem C204_release {lines : List (List Char)} {v : Version} {g : GitAnswers}
    (h : ∀ line ∈ lines, ∀ name ∈ ["git_refnames =", "git_full =", "git_date ="], ∀ blanks more, (∀ ch ∈ blanks, ch ∈ [' ', '\t', '\n', '\r']) →
      line ≠ blanks ++ name.toList ++ more) : setupVersion (some lines) (some v) g = .ok v := by
  have key : ∀ {lines : List (List Char)} {k : Keywords}, (∀ line ∈ lines, ∀ name ∈ ["git_refnames =", "git_full =", "git_date ="], ∀ blanks more,
      (∀ ch ∈ blanks, ch ∈ [' ', '\t', '\n', '\r']) → line ≠ blanks ++ name.toList ++ more) → lines.foldl readKeyword k = k := by
    intro lines
    induction lines with
    | nil => intros; rfl
    | cons line lines ih =>
      intro k hk
      rw [List.foldl_cons]
      have no : ∀ name ∈ ["git_refnames =", "git_full =", "git_date ="], ¬ name.toList.isPrefixOf (stripText line) = true := by
        intro name hn hp
        obtain ⟨blanks, more, hb, e⟩ := starts_line hp
        exact hk line (by simp) name hn blanks more hb e
      have : readKeyword k line = k := by
        unfold readKeyword
        dsimp only
        rw [if_neg (no _ (by simp)), if_neg (no _ (by simp)), if_neg (no _ (by simp))]
      rw [this]
      exact ih fun l hl => hk l (by simp [hl])
  unfold setupVersion readKeywords
  rw [Option.getD_some, key h]
  rfl

example : ∀ line ∈ ["import json".toList, "version_json = '''".toList], ∀ name ∈ ["git_refnames =", "git_full =", "git_date ="], ∀ blanks more,
    (∀ ch ∈ blanks, ch ∈ [' ', '\t', '\n', '\r']) → line ≠ blanks ++ name.toList ++ more := by
  intro line hl name hn blanks more hb e
  have hg : 'g' ∈ line ∧ '_' ∈ line ∧ ' ' ∈ line := by
    rw [e]
    simp only [List.mem_cons, List.not_mem_nil, or_false] at hn
    rcases hn with rfl | rfl | rfl <;> simp
  simp only [List.mem_cons, List.not_mem_nil, or_false] at hl
  rcases hl with rfl | rfl
  · exact absurd hg (by decide)
  · exact absurd hg (by decide)

end Flee
