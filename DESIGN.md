# abiftool in Lean 4: design

The first version of this file was written before the proofs; it is kept current as the model grows.

## 1. How the code is modelled

* The model is a set of total, computable Lean functions that mirror the Python functions branch by branch
  (`lean/Verif/Model/*`). Every definition cites the file and lines it models. Exceptions are values: a function that
  can raise returns `Except PyErr α`, and the theorems talk about these errors too.
* `lean/Verif/Py/*` models the Python library functions the code uses: `str` methods, `splitlines`, dicts, stable
  sorting, regular expressions, `json.dumps`, `urllib.parse.quote_plus`/`parse_qs`, `html.escape`, `csv` writing.
* `lean/Verif/Spec/*` holds the specifications used in the statements. They do not use the model's helpers (exceptions
  are named in section 4).
* `lean/Verif/Lib/*` holds lemmas; `lean/Verif/Props/*` the property theorems, named after the property (`C17_...`).

Representation choices:

| Python | Lean | consequence |
|---|---|---|
| `str` | `List Char` | lone surrogates (which Lean's `Char` excludes) are out of scope |
| `dict` | association list, insertion-ordered, update in place | functions that mutate their argument return the new value; that this is what happens also when objects are shared is proved for the counting, rating and consolidating functions with a model of memory (C105, Model/Heap), elsewhere aliasing is not represented |
| `int` | `Int` | the 4300-digit limit of `int()` is modelled for the ABIF reader (`Model/IntLimit.lean`, C109) and for the jabmod and .abif writers (`Model/IntWrite.lean`, C120); elsewhere it is not modelled |
| `float` (`ties * 0.5`, `total / 2`, `target / total`) | `Py/Float`: a finite double is its rational value, every operation rounds to the nearest double, ties to even; tested against CPython on 1500 operations | the scaled scores are computed with these; the IRV and Copeland models use exact halves, and C104 proves that this is what the floats give (up to 2^53 ballots); `inf`, `nan` and the sign of zero do not occur or are errors |
| `sorted`, `list.sort` | stable insertion sort | all stable sorts agree |
| `re` patterns | literal transcription into a list of single-character classes with `?`, `*`, `+`, run by a backtracking matcher with Python's greedy priority order | every pattern of abiftool has that shape; `(?i)` is ASCII plus the simplification stated at its definition |
| `\d`, `\w`, `str.isalnum`, `str.lower` outside ASCII | a parameter `Uni` | theorems hold for every table; ASCII is fixed |
| set iteration order, `random.choice` | a parameter `Sched` | theorems hold for every order and every choice |
| file system, HTTP server, interruptions | parameters (`PathSem`, `World`) | theorems hold for every behaviour, including failing and cut-short writes |
| `hashlib.sha1` | a parameter | theorems hold for every function |
| `json.loads`, `json.dumps` (plain, sorted, indented) | transcribed (`Py/Json`, `Py/JsonLoad`) | floats, lone surrogates and the recursion limit are not modelled (reading one of the first two is the error `other`) |
| Texttable, BeautifulSoup, graphviz rendering | parameters; what is handed to them is modelled (table cells, page tree, nodes and edges) | the drawing itself is not modelled: Texttable's number formatting, graphviz's reading of `:` in node names |

## 2. Trusted base

* The Lean 4.33.0 kernel. The theorems depend on no axioms but `propext`, `Classical.choice` and `Quot.sound` (the
  standard ones); no axiom is added, and `native_decide`, `bv_decide` and `ofReduceBool` are not used. Concrete
  examples and counterexamples are decided by the kernel (`decide +kernel`).
* The transcription of the Python source into the definitions of `Model/*`.
* The reading of the Python library in `Py/*`.

## 3. Coverage of the code

| file | modelled | not modelled |
|---|---|---|
| `abiflib/abifregex.py`, `abiflib/core.py` | all regular expressions used; parser, rank and rating helpers, export to abif, consolidation, CSV, `_modify_jabmod`, `clean_dict`, `main` with its command line | logging calls, `extradata` (ignored by the code) |
| `abiflib/pairwise.py` | all, `main` with its command line included | |
| `abiflib/scorestar.py` | all, `main` with its command line included, scaled scores with floating-point rounding | the digits of floats in the JSON of the scaled scores (parameter) |
| `abiflib/irvtally.py` | all, `main` with its command line included | |
| `abiflib/nameq.py` | all | tar archives |
| `abiflib/preflib.py`, `debtally.py`, `widjfuncs.py` | all converters, `main` of preflib and debtally with its command line | debug prints |
| `abiflib/sftxt.py` | all, `main` with its command line included | what is printed before an exception |
| `abiflib/textoutput.py`, `html_output_*.py`, `vizelect.py` | table cells, page tree, graph, STAR page, the `main`s of the two pages | rendering by libraries; `validate_abifmodel` |
| `abiflib/util.py` | all | |
| `abiflib/devtools.py` | the log file singleton as a state machine | `main` (a TypeError) |
| `fetchmgr.py` | `fetch_web_items`, `fetch_url_to_subdir`, `process_extfilelist`, `convert_files_to_abif`, `convert_nameq_tarball_to_abif_files`, `process_fetchspec` with the reading of its JSON file, `update_repository`, `checkout_repository`, `main` | what git and tarfile do (parameters) |
| `util/configtool.py` | all but the YAML dump, with its command line | `yaml.dump` |
| `util/copedot.py` | `main` with its command line | graphviz |
| `abiftool.py` | all: the words on the command line as argparse reads them (Model/Argv), `main`, the lists in the help text | the word `--`, the wording of argparse's messages, encodings of files |

## 4. Specifications that share code with the model

* The lines of a text (candidate lines, metadata lines, votelines, comments) have characterisations independent of the
  model's regular expressions (`Spec/Abif.lean`), proved equivalent to them, backtracking included (`Lib/Lines`,
  `Lib/MetaLine`). The preference string of a voteline is read through the public `_parse_prefstr_to_dict`
  (`Spec/AbifFile.lean`), which C05–C07 specify.
* `Jabmod`, `Voteline`, `Pref`, `Dict` are the data types of the API and are used by all specifications.
* `ratingOf` (Spec/Score) reads a rating string with the model's `int()`, which C114's `pyInt_iff` shows to be the independent relation of `Spec/WholeNumber.lean`.

## 5. Properties and theorems

Every property has one or more theorems `Cnn_*` in `Verif.Props`. A property that is false of the code has

* `Cnn_refuted` (or a more specific name): a proof, with a concrete input, that the code violates it, and
* `Cnn_partial`: the strongest part that is true, whose comment says what is missing.

| Id | Modelled | How it is proved |
|---|---|---|
| C01–C04, C08–C13 | `convertAbif`, text to model | invariants over the line loop, independent line classification, two-run simulations |
| C05–C07 | `parsePrefstr` | tokenizer lemma over printed token lists, induction; dense-rank characterisation. C07: quoted candidates without rating are dropped (refuted) |
| C14–C16, C60 | printer and parser | tokenizer, `splitlines` and regular-expression lemmas; C14, C15, C60 refuted for ranks contradicting ratings, bracketed candidate lines, unprintable tokens |
| C17–C20 | `pairwiseCount` | fold = sum; permutation invariance; equivariance under renaming |
| C21–C23 | `winLossTie`, `copelandScores2`, `copelandWinners` | counting; ties counted twice (refuted); C21_exact, C22_exact: right for a candidate iff it ties with nobody |
| C24–C27 | scores and STAR | fold = sum; dense rank; C27: error bounds for IEEE doubles (Lib/Float: nearest double, relative error), C27_inexact |
| C28–C38, C61, C62 | `irvCount` with a schedule | invariants over the recursion, two-run simulation, reports; C30_exact and C34_exact (Props/IrvExact) say exactly what is done with tied ballots in every count; C36_spaced_partial (Props/IrvSpaced): order of lines irrelevant while lines with ties are not neighbours; C29_exact: counted right iff nothing is exhausted; C29, C30, C34, C36, C37 refuted in part |
| C39, C40 | `consolidate`, `json.dumps` | injectivity of the serializer |
| C41 | CSV | counting rows; column-name and id collisions |
| C42 | nameq | UTF-8 and percent-encoding round trip |
| C43–C49 | importers | composition with the parser theorems; several refuted in part |
| C50, C51 | nested values | structural induction |
| C52–C54 | table, page and graph contents | counting pairs; dagger moved to the footnote (C53 refuted) |
| C55 | log state machine | induction over histories |
| C56, C57 | fetch state machine | induction over the downloads; format carried from entry to entry (C57 refuted) |
| C58, C67–C70 | command line | case analysis on the run; format check, several files, STAR section refuted in part |
| C59 | `html.escape`, BeautifulSoup text | homomorphism and unique reading; double escaping refuted |
| C63–C66 | text reports | the text is determined by the tallies of C17–C26 |
| C71 | `convert_text_to_abif` | case analysis; composition with C60 |
| C72 | `json.loads`, `json.dumps(indent=4)`, jabmods as JSON, command line | exact grammar in both directions (C72_exact: accepted iff JSON text; C72_bounds, C72_floats); distinct-key invariant for every reader; two command-line runs compared |
| C73 | conversion of downloaded files, archives, whole fetchspecs | induction over the list of actions with a frame invariant (only outputs change), for every world of failures |
| C74 | `os.path.relpath` and following a relative link | induction over the path parts; refuted for sub-directories (`C74_iff`: exactly then) |
| C75 | IRV count and pairwise support together | sums over ballots: a majority among the continuing candidates bounds both supports; batch case through C33 |
| C76 | IRV count | invariant over the rounds: a candidate of the coalition is left, else the eliminated votes exceed half |
| C77 | `ranklist_from_jabmod_voteline` | stable sort lemmas; uniqueness of the sorted list; refuted for a first rating of 0 and for string ratings |
| C78 | metadata lines | the regular expression equals a direct reader on every line (backtracking lemmas), then the line-loop invariant |
| C79 | printer, JSON printer and parser | the reader applied to every JSON value; composition with the file lemmas of C15 |
| C80 | whole command line (`cliMain`) | relations ReadAs/WrittenAs (Spec/Cli.lean) list the library calls; case split over the formats |
| C81 | `os.path.join`, `os.path.dirname` | induction over the characters; parts as specification (Spec/Path.lean) |
| C82 | importers, exporter and reader composed | file lemmas of C15/C43/C44, stable sorting; refuted for names with tokens that are not url-safe |
| C83 | reader on a concatenated text | fold over appended lines, stability of sorting, sums over appended lists |
| C84 | tallies on two models | sums of quantities are determined by sums over classes of ballots; simulation of two runoff counts (Lib/IrvSim.lean) |
| C85 | tallies on a renamed model | every function of the model commutes with an injective renaming; conjugated schedule |
| C86 | Copeland winners, STAR | from the exact table (C21/C22) the winners are the candidates with fewest losses; counting arguments |
| C87 | `main`, the two dump functions of sftxt.py | uniqueness of runs, reduction to the nameq reader (C42), JSON round trip (C72), case analysis on three votes |
| C88 | `main` of sftxt.py | two-run comparison |
| C89 | `update_repository`, `checkout_repository` as a state machine over working directory, files, output and commands | case analysis over the environment; the failure parts are refuted |
| C90 | the documents of the JSON outputs (keys in the code's order, sets listed in any order); the model of the command line prints them itself | distinct keys, JSON round trip (C72), lookup in the documents, the tally theorems (C17, C21, C25, C26) |
| C91 | `convert_fetchspec_to_newdict` on the text of the file (with the JSON reader of C72), the regex of the id, `_fix_tag` | iff with a relation that says which entry belongs to which archive file (C91_list, C91_id), C91_other, C91_fixtag; refuted for unknown tags |
| C92 | `copedot.main`, `copecount_diagram` with graphviz as a parameter, the cut at `<svg` | C92_svg (iff with a first-occurrence relation), C92_copedot via C54_election, C92_failures; refuted for json |
| C93 | `convert_nameq_to_jabmod` with `parse_qs`, `unquote` and the UTF-8 decoder | iff for success, relation between lines and ballots (C93_import), C93_decode by an invariant of the run of ASCII characters, C93_utf8 by induction along the decoder |
| C94 | writer, reader and tallies as modelled for C15, C42, C17-C33 | same opinions/ballots/scores from the round trip, then C84 |
| C95 | `abifTextToAbif`, `convertAbif`, `convertToAbif` | the exact metadata, candidate list and printed ballot lines after one conversion (one_trip, reread_once), each shown to be a fixed point |
| C96 | the eight `main` functions after argparse (Model/Scripts.lean), against `cliMain` | equalities of whole runs (output and ending); debtally/preflib by showing that a trailing newline printed does not change how abif is read |
| C97 | `enhancedScore`, `starResult` of C25/C26 | first-maximum characterisation of the stable descending sort (FirstMax, TopTwo), then order arguments on score sums; counterexamples by kernel evaluation |
| C98 | `irvCount` with a schedule | two-run simulation up to the round in which c is eliminated or wins; counterexamples by evaluation in the kernel |
| C99 | `cliOutput` of Model/Cli, specification Spec/Outcome; every input format in Props/OutcomeAny | case analysis over formats, totality of every output from the exactness theorems |
| C100 | `json.load` and the members the program looks at (Model/FetchSpec.lean) | member by member against Spec/FetchSpec.lean (`DescribesSpec`), with C72 for the JSON text |
| C101 | Model/Cli, Model/Sftxt: the whole run of abiftool on two blobs | Tallyable holds of every import (runs of C47, ranks of three digits, tokens of votes in the table); then C99_any; C53_unnamed for the pages |
| C102 | Model/Argv: argparse on the parser of abiftool word by word; Spec/Argv: the ways to write an option, plain words, the meaning of a list of options | C102_parse is an iff: forward by running the parser over a run of written options, backward by strong induction on the words; help by the same induction; C102_listed over the lines of the help text |
| C103 | Spec/Paper: ballots, papers, what they say (above, points, favours, InstantRunoff), no reference to the model | C103_read by composing the line and preference-text lemmas (parse_ballot, convertAbif_paper); the printed documents by C102_parse and C90 on the model that was read, with sums over votelines turned into sums over the paper (paper_sum); C103_irv from C29-C33 and C31_goes_on; the text reports (C103_text_*) from C62-C67 in the same way |
| C104 | Py/Float (IEEE 754 doubles, round to nearest even), Model/IrvFloat: the count of Model/Irv with the float test | IsDouble of half-integers of 53 digits; induction on rounds with the quantity left as the invariant; fround_rel for the margin |
| C105 | Model/Heap: memory as a list of objects, the copying and mutating functions with references | the heap functions refine the ones on values: copies consist of new objects (memo invariant), deletions and rating updates only write new objects and are idempotent on shared ones; session by induction on the calls |
| C106 | Model/IrvDeep: the count with the number of calls that can still be nested | C106_exact by induction on the rounds; C106_refuted by a family of elections (tallPaper) read by C103, whose rounds are counted from the specification of instant runoff |
| C107 | Model/Parse | Lib/Pieces: one step of the token loop for each kind of piece, the loop by induction, the dictionary as a fold of assignments; Spec/Pieces is the small specification |
| C108 | Model/Irv | Lib/Runoff: elimination counts in general (who can win under some order of eliminating candidates in last place; eliminating a group with fewer votes than everybody else changes nothing; merging and splitting candidates); Props/IrvClones: the reported run is such a count, Spec: PartyElection, ClearCut |
| C109 | `Model/IntLimit.lean`: the reader with every `int()` limited to `lim` digits | each limited function equals its unlimited one or ends with a ValueError, by composition of binds; short runs of digits are inherited by infixes of the text, so no conversion of a text without long runs is refused; a voteline's quantity is converted before anything else in its line |
| C110 | `Model/ScriptArgv.lean`: argparse's loop over the words for a program given by its list of options and arguments; `Spec/ScriptArgv.lean`: the ways to write options | one pass of the loop reads exactly a way to write options or a plain word; induction over the words, both directions |
| C111 | `Model/JsonIo.lean`: json.loads and the members read; `Spec/ModelDoc.lean`: what a document says | each reader reads exactly what the specification of that member says; lists by induction |
| C112 | `Model/Parse.lean`: the token loop and the delimiter scan | the loop over the lost part changes no candidate; the delimiters it contributes come after those that are used; induction over the parts |
| C113 | `Model/Parse.lean`: the token loop, the delimiter scan and the line loop | each step of the token loop looks at the stripped token only; the delimiters outside brackets by induction over the brackets; the line loop preserves equality up to the recorded writing |
| C114 | `pyIntOfStr` in `Model/Parse.lean`; `Spec/WholeNumber.lean`: digits and underscores as an inductive relation with the number | the shape test of the model equals the relation, by induction on the length from the right; the first faulty entry by induction over entries and votelines |
| C115 | the `splitlines` calls of all readers; `Spec/LineEnds.lean`: `WritesLines`, an inductive relation between lines and texts | `splitlines` inverts the relation, by induction over it; a stray line has no effect but its comment, and the loop over lines is a congruence |
| C116 | `Model/Tally.lean`, `Model/Irv.lean`; reversal as a relation on what the ballots prefer | support is transposed by induction over the votelines; winners through C86_fewest_losses |
| C117 | `Model/Tally.lean`, `Model/Irv.lean`; the second election has the same ballots and more candidates | a bystander has no votes in any round, so the runoffs possible with and without are the same (`Lib/Runoff.lean`); losses are unchanged, and a bystander loses to more than a candidate on a ballot |
| C118 | `Model/Tally.lean`, `Model/Irv.lean` | the first round is compared with the pairwise support; C32_majority, C86_smith, C97_star |
| C119 | `Model/Parse.lean`, `Model/Tally.lean`, `Model/Irv.lean` | the line is read as no preferences and sorted in; the folds skip it; a simulation of the runoff with shifted totals |
| C120 | `Model/IntWrite.lean`: the jabmod and .abif writers with every number limited to `lim` digits | an invariant of the reader bounds every number it makes (ranks and counts by the length of the text, quantities and ratings by the digits read or by the total); digits of a number by `Nat.toDigits` length |
| C121 | `Spec/Borda.lean` on top of `Spec/Paper.lean`; `Model/Parse.lean`, `Model/Tally.lean`, `Model/Cli.lean` | the ranks of a written ballot, then C12; points are candidates below, by induction over the tiers; double sums over pairs |
| C122 | pairwise count and Copeland winners (Model/Tally), the line in Spec/Line | votes on one side of a place as sums over the ballots; median by extremal candidates; Copeland winner through C86 |
| C123 | elections on paper (Spec/Paper), approval ballots in Spec/Approval | approvals by induction over the ballots; Copeland through C86, score and STAR through C97 |
| C124 | multiplied lines, models and results in Spec/Multiple | simulation of each program step by step; the comparisons are unchanged because k > 0 |
| C125 | elections counted together in Spec/Precincts | sums over concatenated votelines; with four candidates a sole Copeland winner loses no comparison (sums of losses); on the command line, sums over papers written one after the other (Props/PaperJoin) |
| C126 | withdrawal as a relation between elections in Spec/Withdraw | votes among the remaining candidates are the same; in a clear-cut count nobody else can win from any round on (Lib/Runoff, Props/IrvClones) |
| C127 | groups of candidates and head-to-head support as in C76 and C86 | induction over eliminations (Lib/Runoff): the last of the group cannot be in last place, since three candidates cannot each have more than a third |
| C128 | ballots one by one and papers that differ in k of them in Spec/Recount | counts over ballots one by one, at most one favourite per ballot, then C103; exactness by replacing k ballots of the leader with ballots for a rival |
| C129 | the file is written out: for every pair two rankings that cancel for all other pairs (McGarvey) | counting over the rankings, then C103 |
| C130 | the file gives the i-th of n candidates 2n+i ballots that name nobody else (with two points for the wanted score winner, one for the others) | every instant runoff of it has these rounds, by induction, then C103 |

Hypotheses of theorems about models are met by every parsed text: `parsed_allRanked`, `parsed_scorable`,
`parsed_countable`, `parsed_nonneg`, `parsed_below` (Props/ParsedTally). Beside each theorem there are concrete examples
checked by the kernel.

## 6. Defects of the code found on the way

Each is a theorem (`*_refuted`, `*_collision`, ...): quoted candidates without rating dropped (C07); ratings
contradicting ranks lost on export (C14); candidate lines with bracketed tokens not re-read (C15, C60); ties counted
twice (C21, C22); scaled scores that do not sum to the target (C27); huge elections decided by a rounding error, or
a crash (C104); IRV: overvotes skipped after an overvote, `countedqty` too small, labels swapped (C29, C34, C36, C37);
CSV column and id collisions (C41); preflib index 0 and unordered alternatives (C43); Debian digits above the number of
options (C44); token collisions (C45, C47); widj import never works (C49); dagger lost (C53); invalid log setting
reported once (C55); truncated downloads never repeated (C56); format carried over (C57); standard input without `-f`
(C58); double escaping (C59); tied Copeland winners not named (C65); STAR section decided by the first entry (C67); only
the last file used (C68); metadata dropped for preflib (C71); closing single quote kept in metadata values, metadata lines
with other characters ignored (C78), metadata with characters outside ASCII lost on rewriting (C79); descriptions with other characters lost in
converted Debian sheets (C71); names with unusual characters lost in converted files (C82);
a tied IRV result can include a candidate outside a majority coalition (C76); mixed ratings raise TypeError (C77);
San Francisco program: fourth choice dropped, `None` candidate, ballots with fewer than three lines fail, a contest
without lines gives a null ballot (C87); abif and jabmod outputs ignore `--contestid` and `-o` (C88);
failures of git are never noticed, and without git the working directory is not restored (C89);
`-t json` without a modifier that chooses prints a sentence instead of JSON (C90);
San Francisco imports have a candidate without a name, so their pages (html, html_snippet) are always a TypeError (C101);
the STAR text fails when the largest ballot line is blank (C99);
the size limit of `validate_abifmodel` looks only at the outermost object and never stops anything (not a theorem);
every instant-runoff round is a nested call, so a count with about a thousand rounds ends with a RecursionError (C106);
an empty entry between delimiters shifts the delimiters, so that `>A=B` ranks A above B (C107);
a square bracket that is not closed silently ends the ballot (C112);
a blank before the slash of a rating becomes part of the candidate, so `a /5` and `a/4` are two candidates (C113);
a byte order mark at the beginning of an .abif file silently loses its first line (C115);
a line of blank ballots between two lines with tied first places can change the winner of the instant runoff (C119);
a total of ballots with more than 4300 digits can be written neither as jabmod nor as .abif although every quantity was read (C120);
the `--abif` option of fetchmgr takes a value, so that `fetchmgr.py --abif spec.json` processes nothing (C110);
running devtools.py as a program is a TypeError (an unknown argument `verbose`; not modelled).
