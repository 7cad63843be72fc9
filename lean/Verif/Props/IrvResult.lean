/-
Properties of the summary fields of the IRV result and of its text report (C61, C62).
-/
import Verif.Props.Irv
import Verif.Lib.StrLe

set_option linter.unusedSectionVars false

namespace Verif.Props
open Spec

theorem names_forall₂ {cd : Dict Str (Option Str)} {l names : List Str} (hn : l.mapM (nameOf cd) = .ok names) :
    List.Forall₂ (fun (w n : Str) => Dict.get? cd w = some (some n)) l names := by
  induction l generalizing names with
  | nil => cases hn; exact .nil
  | cons a l ih =>
    obtain ⟨b, bs, h1, h2, rfl⟩ := mapM_cons_ok.1 hn
    refine .cons ?_ (ih h2)
    unfold nameOf at h1
    split at h1
    · cases h1; assumption
    · cases h1
    · cases h1

theorem joinNames_ok {cd : Dict Str (Option Str)} {ws : List Str} {s : Str} (h : joinNames cd ws = .ok s) :
    ∃ names : List Str, s = joinStr c!" and " names ∧
      List.Forall₂ (fun (w n : Str) => Dict.get? cd w = some (some n)) (pySort strLe ws) names := by
  unfold joinNames at h
  obtain ⟨names, hn, h⟩ := bind_ok.1 h
  cases h
  exact ⟨names, rfl, names_forall₂ hn⟩

/-- C61.  In the result of an IRV count, `winnerstr` is the name of the winner; with several winners it is
their names joined by " and ", in the order of their tokens.  `has_tie` says whether some round recorded
tied bottom candidates. -/
theorem C61_summary (S : Sched) (m : Jabmod) (d : IrvDict) (h : irvDict S m = .ok d) :
    (∀ w, d.run.winner = [w] → Dict.get? m.candidates w = some d.winnerstr) ∧
    (2 ≤ d.run.winner.length → ∃ ws names : List Str, ws.Perm d.run.winner ∧ ws.Pairwise (fun a b => strLe a b = true) ∧
      List.Forall₂ (fun (w n : Str) => Dict.get? m.candidates w = some (some n)) ws names ∧
      d.winnerstr = some (joinStr c!" and " names)) ∧
    (d.hasTie = true ↔ ∃ rm ∈ d.run.roundmeta, rm.bottomtie ≠ none) := by
  unfold irvDict at h
  obtain ⟨run, hrun, h⟩ := bind_ok.1 h
  obtain ⟨ws, hws, h⟩ := bind_ok.1 h
  cases h
  refine ⟨?_, ?_, ?_⟩
  · intro w hw
    simp only at hw
    rw [hw] at hws
    exact Dict.getE_ok.1 hws
  · intro hl
    simp only at hl
    cases hr : run.winner with
    | nil => rw [hr] at hl; simp at hl
    | cons a t =>
      cases t with
      | nil => rw [hr] at hl; simp at hl
      | cons b t =>
        rw [hr] at hws
        simp only [winnerStr] at hws
        cases hj : joinNames m.candidates (a :: b :: t) with
        | error e => rw [hj] at hws; cases hws
        | ok s =>
          rw [hj] at hws
          cases hws
          obtain ⟨names, h1, h2⟩ := joinNames_ok hj
          exact ⟨_, names, by simpa [hr] using pySort_perm strLe (a :: b :: t), pySort_sorted strLe_totalPre _, h2, by rw [h1]⟩
  · simp only [List.any_eq_true, Option.isSome_iff_ne_none]

/-- C62.  The text report of a count has one block per round, in order, headed `Round 1:`, `Round 2:`, ...;
the block of a round starts with the continuing candidates in alphabetic order and the round's starting, exhausted,
overvoted and counted quantities, has a line `    <candidate>: <votes>` for every candidate counted in it and the line of
the candidates eliminated, in alphabetic order; the report ends with the sentence naming the winner(s). -/
theorem C62_report (S : Sched) (m : Jabmod) (hc : Countable m) (hne : m.candidates ≠ [])
    (hnames : ∀ c, Dict.get? m.candidates c ≠ some none) :
    ∃ (d : IrvDict) (blocks : List Str) (last : Str), irvDict S m = .ok d ∧ irvReport d = .ok (blocks.flatten ++ last) ∧
      blocks.length = d.run.rounds.length ∧
      (∀ (i : Nat) (block : Str) (cnt : Dict Str Int) (rm : RoundMeta), blocks[i]? = some block →
        d.run.rounds[i]? = some cnt → d.run.roundmeta[i]? = some rm →
        (∃ start, start.Perm rm.startingCands ∧ start.Pairwise (fun a b => strLe a b = true) ∧
          (c!"\nRound " ++ natStr (i + 1) ++ c!":\n" ++ c!"  Starting cands: " ++ joinStr c!", " start ++ c!"\n" ++
            c!"  Total starting votes: " ++ intStr rm.startingqty ++ c!"\n" ++ c!"  Exhausted votes: " ++ intStr rm.exhaustedqty ++
            c!"\n" ++ c!"  Overvotes: " ++ intStr rm.overvoteqty ++ c!"\n" ++ c!"  Total counted votes: " ++
            intStr rm.countedqty ++ c!"\n") <+: block) ∧
        (∀ (c : Str) (n : Int), (c, n) ∈ cnt → (c!"\n    " ++ c ++ c!": " ++ intStr n ++ c!"\n") <:+: block) ∧
        ∃ out, out.Perm rm.eliminated ∧ out.Pairwise (fun a b => strLe a b = true) ∧
          (c!"  Eliminated this round: " ++ joinStr c!", " out ++ c!"\n") <:+ block) ∧
      ((∃ w, d.run.winner = [w] ∧ last = c!"The IRV winner is " ++ w ++ c!"\n") ∨
       (∃ ws, ws.Perm d.run.winner ∧ ws.Pairwise (fun a b => strLe a b = true) ∧ 2 ≤ ws.length ∧
          last = c!"The IRV winners are " ++ joinStr c!" and " ws ++ c!"\n")) := by
  obtain ⟨d, hd, hw, _, _, _, hlen⟩ := C28_total S m hc hne hnames
  refine ⟨d, (d.run.rounds.zip d.run.roundmeta).zipIdx.map (fun x => roundBlock x.2 x.1.1 x.1.2),
    (match d.run.winner with
     | [] => []
     | [w] => c!"The IRV winner is " ++ w ++ c!"\n"
     | ws => c!"The IRV winners are " ++ joinStr c!" and " (pySort strLe ws) ++ c!"\n"), hd, ?_, ?_, ?_, ?_⟩
  · unfold irvReport
    cases hr : d.run.winner with
    | nil => exact absurd hr hw
    | cons a t =>
      cases t with
      | nil => rfl
      | cons b t => rfl
  · simp [hlen]
  · intro i block cnt rm hb h1 h2
    rw [List.getElem?_map] at hb
    obtain ⟨x, hx, rfl⟩ := Option.map_eq_some_iff.1 hb
    rw [List.getElem?_zipIdx] at hx
    obtain ⟨y, hy, rfl⟩ := Option.map_eq_some_iff.1 hx
    rw [List.getElem?_zip_eq_some] at hy
    obtain ⟨h3, h4⟩ := hy
    rw [h1] at h3; rw [h2] at h4
    cases h3; cases h4
    simp only [Nat.zero_add]
    refine ⟨?_, ?_, ?_⟩
    · refine ⟨_, pySort_perm strLe _, pySort_sorted strLe_totalPre _, ?_⟩
      unfold roundBlock
      simp only [List.append_assoc, List.prefix_append_right_inj]
      exact List.prefix_append _ _
    · intro c n hcn
      obtain ⟨a, b, hab⟩ := List.append_of_mem hcn
      have key : (c!"\n    " ++ c ++ c!": " ++ intStr n ++ c!"\n") <:+: c!"  Votes by candidate:\n" ++
          (List.flatMap (fun cv : Str × Int => c!"    " ++ cv.1 ++ c!": " ++ intStr cv.2 ++ c!"\n") y.1) := by
        rw [hab, List.flatMap_append, List.flatMap_cons]
        rcases List.eq_nil_or_concat a with rfl | ⟨a', e, rfl⟩
        · refine ⟨c!"  Votes by candidate:", (List.flatMap (fun cv : Str × Int => c!"    " ++ cv.1 ++ c!": " ++ intStr cv.2 ++ c!"\n") b), ?_⟩
          simp only [List.flatMap_nil, List.nil_append, List.append_assoc]
          rfl
        · refine ⟨c!"  Votes by candidate:\n" ++ (List.flatMap (fun cv : Str × Int => c!"    " ++ cv.1 ++ c!": " ++ intStr cv.2 ++ c!"\n") a' ++ (c!"    " ++ e.1 ++ c!": " ++ intStr e.2)), (List.flatMap (fun cv : Str × Int => c!"    " ++ cv.1 ++ c!": " ++ intStr cv.2 ++ c!"\n") b), ?_⟩
          simp only [List.concat_eq_append, List.flatMap_append, List.flatMap_cons, List.flatMap_nil, List.append_nil, List.append_assoc]
          rfl
      unfold roundBlock
      exact key.trans (List.infix_append _ _ _)
    · refine ⟨_, pySort_perm strLe _, pySort_sorted strLe_totalPre _, ?_⟩
      unfold roundBlock
      exact List.suffix_append _ _
  · cases hr : d.run.winner with
    | nil => exact absurd hr hw
    | cons a t =>
      cases t with
      | nil => exact .inl ⟨a, rfl, rfl⟩
      | cons b t => exact .inr ⟨_, pySort_perm strLe _, pySort_sorted strLe_totalPre _, by rw [(pySort_perm strLe _).length_eq]; simp, rfl⟩

section Examples
attribute [local instance] Uni.ascii
set_option maxRecDepth 20000

/-- two winners, one winner, a tie flag -/
example : (convertAbif true false false c!"=A:[Ann]\n=B:[Bob]\n2:B\n2:A\n" >>= fun m => irvDict Sched.std m >>= fun d =>
    .ok (d.run.winner.length, d.winnerstr, d.hasTie)) = .ok (2, some c!"Ann and Bob", true) := by decide +kernel
example : (convertAbif true false false c!"=A:[Ann]\n=B:[Bob]\n1:B\n2:A\n" >>= fun m => irvDict Sched.std m >>= fun d =>
    .ok (d.run.winner, d.winnerstr, d.hasTie)) = .ok ([c!"A"], some c!"Ann", false) := by decide +kernel

end Examples
end Verif.Props
