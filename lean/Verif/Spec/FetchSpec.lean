/-
What a fetchspec document says, member by member.
-/
import Verif.Model.FetchRun
import Verif.Spec.JsonOut

namespace Verif.Spec

/-- the document has the text `x` under the key `k`, or no such member -/
def SaysText (d : Json) (k : Str) : Option Str → Prop
  | none => member k d = none
  | some x => member k d = some (.str x)

/-- the same, where `null` may stand for nothing -/
def MaySayText (d : Json) (k : Str) : Option Str → Prop
  | none => member k d = none ∨ member k d = some .null
  | some x => member k d = some (.str x)

/-- the document has the list of texts under the key, or no such member -/
def SaysTexts (d : Json) (k : Str) : Option (List Str) → Prop
  | none => member k d = none
  | some l => member k d = some (texts l)

/-- an object describing one file to fetch or to convert; further members do not matter -/
structure DescribesEntry (d : Json) (e : SpecEntry) : Prop where
  object : ∃ l, d = .obj l
  localcopies : SaysTexts d c!"localcopies" e.localcopies
  localcopy : SaysText d c!"localcopy" e.localcopy
  urls : SaysTexts d c!"urls" e.urls
  url : SaysText d c!"url" e.url
  metaurls : SaysTexts d c!"metaurls" e.metaurls
  desc : SaysText d c!"desc" e.desc
  srcfmt : MaySayText d c!"srcfmt" e.srcfmt
  abifloc : SaysText d c!"abifloc" e.abifloc

/-- an object describing one member of an archive -/
def DescribesMember (d : Json) (a : ArchSub) : Prop :=
  member c!"archive_subfile" d = some (.str a.member) ∧ member c!"abifloc" d = some (.str a.abifloc)

/-- one by one -/
inductive Each {α β : Type} (R : α → β → Prop) : List α → List β → Prop
  | nil : Each R [] []
  | cons {x : α} {y : β} {xs : List α} {ys : List β} : R x y → Each R xs ys → Each R (x :: xs) (y :: ys)

/-- the document has the list of entries under the key, or no such member -/
def SaysEntries (d : Json) (k : Str) : Option (List SpecEntry) → Prop
  | none => member k d = none
  | some es => ∃ vs, member k d = some (.arr vs) ∧ Each DescribesEntry vs es

/-- the archive members to extract, or nothing -/
def SaysMembers (d : Json) : Option (List ArchSub) → Prop
  | none => member c!"archive_subfiles" d = none ∨ member c!"archive_subfiles" d = some .null
  | some as => ∃ vs, member c!"archive_subfiles" d = some (.arr vs) ∧ Each DescribesMember vs as

/-- The document describes the fetchspec.  The order of members and further members do not matter. -/
structure DescribesSpec (d : Json) (f : FetchSpec) : Prop where
  object : ∃ l, d = .obj l
  source : f.gitrepo ≠ none ∨ f.webUrls ≠ none
  download : member c!"download_subdir" d = some (.str f.downloadSubdir)
  gitrepo : SaysText d c!"gitrepo_url" f.gitrepo
  abifSubdir : MaySayText d c!"abifloc_subdir" f.abifSubdir
  webUrls : SaysEntries d c!"web_urls" f.webUrls
  extfiles : SaysEntries d c!"extfiles" f.extfiles
  srcfmt : MaySayText d c!"srcfmt" f.srcfmt
  subs : SaysMembers d f.subs

end Verif.Spec
