/-
Specification of the command line: which library call each input and output format stands for.
-/
import Verif.Model.Cli

namespace Verif.Spec
variable [Uni]

/-- the modifiers in force: the ones given, or the three default ones -/
inductive InForce (a : CliArgs) : List Str → Prop
  | default : a.modifier = none → InForce a [c!"candlist", c!"Copeland", c!"winlosstie"]
  | given (ms : List Str) : ms ≠ [] → a.modifier = some ms → InForce a ms

/-- What reading one text in the given format means (`convertAbif cleanws addRatings storecomments text`). -/
inductive ReadAs (env : CliEnv) (a : CliArgs) (mods : List Str) (text : Str) : Str → Except PyErr Jabmod → Prop
  | abifComments : c!"jcomments" ∈ mods →
      ReadAs env a mods text c!"abif" (convertAbif a.cleanws a.addScores true text)
  | abif : c!"jcomments" ∉ mods →
      ReadAs env a mods text c!"abif" (convertAbif a.cleanws a.addScores false text)
  | debtally : ReadAs env a mods text c!"debtally" (convertDebtally env.sha [] text >>= convertAbif false false false)
  | jabmod : ReadAs env a mods text c!"jabmod" (env.loads text)
  | nameq : ReadAs env a mods text c!"nameq" (nameqToJabmod text)
  | preflib : ReadAs env a mods text c!"preflib" (convertPreflib text >>= convertAbif false false false)

/-- what writing a model in the given format means -/
inductive WrittenAs (env : CliEnv) (width : Int) (mods : List Str) (m : Jabmod) : Str → Except PyErr Str → Prop
  | abif : WrittenAs env width mods m c!"abif" (convertToAbif m)
  | csvrank : WrittenAs env width mods m c!"csvrank" (rankingCsv m)
  | dot : WrittenAs env width mods m c!"dot" (do let cc ← fullCopecount m; let g ← copecountGraph cc; let d ← env.pipe c!"dot" g; .ok (fromSvg d))
  | svg : WrittenAs env width mods m c!"svg" (do let cc ← fullCopecount m; let g ← copecountGraph cc; let d ← env.pipe c!"svg" g; .ok (fromSvg d))
  | html : WrittenAs env width mods m c!"html" (do let p ← htmlPage m true false; env.html false none p)
  | irvjson : WrittenAs env width mods m c!"irvjson" (do let d ← irvDict env.sched m; .ok (irvDoc env.listing m.candidates d).dumpsIndent)
  | paircountjson : c!"IRV" ∉ mods → WrittenAs env width mods m c!"paircountjson" (.ok (pairsDoc (pairwiseCount m)).dumpsIndent)
  | jsonIrv (to : Str) : to = c!"json" ∨ to = c!"paircountjson" → c!"IRV" ∈ mods →
      WrittenAs env width mods m to (do let d ← irvDict env.sched m; .ok (irvDoc env.listing m.candidates d).dumpsIndent)
  | jsonPairs : c!"IRV" ∉ mods → c!"pairwise" ∈ mods → WrittenAs env width mods m c!"json" (.ok (pairsDoc (pairwiseCount m)).dumpsIndent)
  | jsonStar : c!"IRV" ∉ mods → c!"pairwise" ∉ mods → c!"STAR" ∈ mods →
      WrittenAs env width mods m c!"json" (do let r ← starResult m; .ok (starDoc r).dumpsIndent)
  | jabmod : WrittenAs env width mods m c!"jabmod" (.ok (dumpModel m))
  | nameq : WrittenAs env width mods m c!"nameq" (jabmodToNameq m)
  | text : WrittenAs env width mods m c!"text" (cliText env mods width m)
  | winlosstiejson : WrittenAs env width mods m c!"winlosstiejson"
      (do let w ← winLossTie m.candidates.keys (pairwiseCount m); .ok (wltDoc w).dumpsIndent)

/-- how a run ends that computed an output, or failed to -/
def endsWith : Except PyErr Str → CliResult
  | .ok out => ⟨out ++ c!"\n", .ok ()⟩
  | .error e => ⟨[], .error e⟩

end Verif.Spec
