/-
Specification vocabulary for tallies: what a ballot says about candidates, and sums over ballots.
-/
import Verif.Model.Jabmod

namespace Verif.Spec

/-- The rank a voteline gives a candidate, if it lists it with a rank. -/
def rankOf (vl : Voteline) (c : Str) : Option Int := (vl.prefs.get? c).bind Pref.rank

/-- The voters of this line prefer `a` to `b`: `a` is ranked, and `b` is ranked lower or not at all. -/
def prefers (vl : Voteline) (a b : Str) : Bool :=
  match rankOf vl a, rankOf vl b with
  | some ra, some rb => decide (ra < rb)
  | some _, none => true
  | none, _ => false

/-- Total quantity of the votelines satisfying `p`. -/
def qtySum (p : Voteline → Bool) (vls : List Voteline) : Int := ((vls.filter p).map Voteline.qty).sum

/-- Number of voters preferring `a` to `b`. -/
def support (m : Jabmod) (a b : Str) : Int := qtySum (fun vl => prefers vl a b) m.votelines

/-- Every listed candidate has a rank, smaller than the program's stand-in for "unranked"
(`sys.maxsize`, 2^63-1). -/
def AllRanked (m : Jabmod) : Prop :=
  ∀ vl ∈ m.votelines, ∀ c p, vl.prefs.get? c = some p → ∃ r, p.rank = some r ∧ r < 9223372036854775807

/-- Two preference maps are equal as maps. -/
def SamePrefs (p q : Dict Str Pref) : Prop := ∀ c, p.get? c = q.get? c

open Classical in
/-- Total quantity of the votelines with a given preference map. -/
noncomputable def weight (vls : List Voteline) (p : Dict Str Pref) : Int :=
  qtySum (fun vl => decide (SamePrefs vl.prefs p)) vls

/-- Two models describe the same election up to order and grouping of votelines. -/
def SameElection (m m' : Jabmod) : Prop :=
  m.candidates = m'.candidates ∧ ∀ p, weight m.votelines p = weight m'.votelines p

/-- The number of opponents `b` of `a` (in the list `toks`) with `rel b`. -/
def countOpp (toks : List Str) (a : Str) (rel : Str → Bool) : Int :=
  ((toks.filter (fun b => decide (b ≠ a) && rel b)).length : Int)

/-- The number of candidates that `c` beats, loses to, and ties with, head to head. -/
def winsOf (m : Jabmod) (c : Str) : Int := countOpp m.candidates.keys c (fun b => decide (support m c b > support m b c))
def lossesOf (m : Jabmod) (c : Str) : Int := countOpp m.candidates.keys c (fun b => decide (support m b c > support m c b))
def tiesOf (m : Jabmod) (c : Str) : Int := countOpp m.candidates.keys c (fun b => decide (support m c b = support m b c))

/-- The voters of this line do not prefer either of `a`, `b` to the other. -/
def indifferent (vl : Voteline) (a b : Str) : Bool := !prefers vl a b && !prefers vl b a

/-- All candidates renamed by `f`, in the table and on the ballots. -/
def renameModel (f : Str → Str) (m : Jabmod) : Jabmod :=
  { m with
    candidates := m.candidates.map (fun kv => (f kv.1, kv.2))
    votelines := m.votelines.map (fun vl => { vl with prefs := vl.prefs.map (fun kv => (f kv.1, kv.2)) }) }

end Verif.Spec
