{
 "C17": {
  "note": "C17_unranked_resets shows the hypothesis AllRanked (met by all parsed text, parsed_allRanked) is needed.",
  "extra": [
   "Verif.Props.parsed_allRanked"
  ]
 },
 "C21": {
  "note": "ties are counted twice (C21_refuted); everything else is proved; C21_exact: the record of a candidate adds up iff it ties with nobody"
 },
 "C22": {
  "note": "a tie is worth a whole win (C22_refuted); the actual score formula is proved; C22_exact: right iff the candidate ties with nobody, and how much too high otherwise"
 },
 "C24": {
  "note": "Scorable is met by every parsed text",
  "extra": [
   "Verif.Props.parsed_scorable"
  ]
 },
 "C28": {
  "note": "Countable is met by every parsed text (parsed_countable); with no candidate the count raises ValueError",
  "extra": [
   "Verif.Props.parsed_countable"
  ]
 },
 "C29": {
  "note": "all accounting equations are proved; the reported countedqty subtracts exhausted ballots that were never in it (C29_refuted); C29_exact: it is right iff nothing is exhausted in the round"
 },
 "C30": {
  "note": "C30_exact says exactly what happens in every round of every count (tied ballots, empty token included); C30_strict: the property for strict ballots; C30_partial: for counts without adjacent overvoted lines; false otherwise (C34_refuted) and for an empty token (C30_refuted)",
  "extra": [
   "Verif.Props.parsed_below"
  ]
 },
 "C31": {
  "note": "QtyNonneg holds of parsed text (parsed_nonneg)",
  "extra": [
   "Verif.Props.parsed_nonneg"
  ]
 },
 "C34": {
  "note": "C34_exact: the reported overvotes of every round of every count are the 1st, 3rd, 5th, ... line of each run of adjacent overvoted lines; the property itself holds when no two adjacent lines are overvoted (C34_partial) and is false otherwise (C34_refuted): deleting while iterating skips the next line"
 },
 "C36": {
  "note": "proved for ballots without ties and, more generally, whenever in neither order two lines with ties are neighbours (C36_spaced_partial, C36_one_tied_partial); false with neighbouring overvotes (C36_refuted)"
 },
 "C37": {
  "note": "top_voteqty/bottom_voteqty are swapped and a round-1 batch is missing from all_eliminated (C37_refuted). C37_partial: the extremes and all_eliminated in every non-final round; C37_last: all_eliminated in the last round (it adds candidates with the smallest count although nobody is eliminated any more); C37_winner_iff: the last round lists one of its winners there exactly when all its candidates are level (C37_winner_refuted: a lone winner; one of two tied winners)."
 },
 "C14": {
  "note": "C14_exact: what comes back for every exportable ballot (ranked by rating if all candidates are rated, by rank otherwise); C14_iff: it is the same ballot exactly when, if all are rated, the ranks are the ranks by rating; C14_refuted: a ballot where they are not. Ratings are compared as numbers, a missing rating being 0."
 },
 "C15": {
  "note": "C15_exact: what comes back for every writable model; C15_iff: the candidate table survives exactly when every bracketed candidate is on a ballot and is named by its token, the ballots exactly when C14_iff holds of each; C15_refuted: a name that is lost."
 },
 "C60": {
  "note": "false for tokens that cannot be printed, e.g. an empty quoted token (C60_refuted). C60_text_partial: stated on the text alone: no double quotes in the preference lists and no blank right before a slash."
 },
 "C43": {
  "note": "index 0 silently names the last alternative (C43_zero_refuted) and names are taken by order of appearance, not by number (C43_order_refuted); C43_exact: every file is read as if so renumbered; C43_range: which files are an IndexError; the ballots for documents whose alternatives are listed 1..n"
 },
 "C44": {
  "note": "digits above the number of options are dropped and a vote with a rank after the last option fails (C44_refuted, C44_too_long: exactly those sheets fail); C44_text the text of every other sheet; C44_model_partial the ballots when tokens are distinct; metadata passed in: C44_metadata"
 },
 "C47": {
  "note": "a contest without image lines is a KeyError (C47_empty_refuted), names equal in their first twenty characters share a token (C47_collision_refuted), and the candidate table has a bogus cand0 (C47_bogus_candidate); C47_all_or_nothing says exactly which well-formed pairs of files are imported C47_candidates: the exact candidate table. C47_errors: which exception a malformed image line ends in."
 },
 "C48": {
  "note": "the declared lengths are not checked (C48_length_unchecked); specs are CSV without quotes"
 },
 "C49": {
  "note": "False of the program (C49_refuted): every call raises NameError because ABIF_VERSION is not defined in widjfuncs.py. C49_partial proves the rest for a module where it is."
 },
 "C52": {
  "note": "C52_table: header, rows, cells and labels handed to texttable; C52_print: the post-processing of the drawing changes only '-' to '=' and '|' to '+'. texttable's own layout is a parameter. The ties in a label are doubled because the win-loss-tie table's are (C21)."
 },
 "C53": {
  "note": "C53_partial: one cell per pair, numbers, labels, footnote; the dagger of the last marked cell is moved to the footnote (C53_refuted), so the marker clause holds for all marked cells but the last. C53_layout: equal row widths. C53_unnamed: TypeError when a name is None. BeautifulSoup rendering not modelled."
 },
 "C54": {
  "note": "C54_graph for every square matrix, C54_election for elections. graphviz rendering (including its treatment of ':' in node names) not modelled."
 },
 "C55": {
  "note": "C55_partial: with a valid setting every message up to the first close is appended in order; C55_unset: nothing is written without a setting; C55_refuted: an invalid setting is reported on the first use only (the half-made singleton is kept), C55_closed: messages after a close are dropped silently."
 },
 "C56": {
  "note": "C56_fetch for the fetchspecs in use (each item has one localcopy per url), C56_safe for every fetchspec; C56_idempotent: a later run makes no request; C56_interrupted: a truncated download is never repeated. The OS and the server are parameters (any answers, any failures, writes cut short). C56_errors: with complete entries a run fails only with errors of the network or the operating system; C56_succeeds: it ends normally when neither makes trouble; C56_malformed: what entries with mismatched keys end with."
 },
 "C57": {
  "note": "C57_carried says what happens in every case (format of the last entry that names one); C57_partial: the property holds when no entry without format follows one with; C57_refuted: it fails otherwise. C57_action: each action uses exactly its format, files and output name."
 },
 "C58": {
  "note": "C58_partial: -f, extension, default, refusal of unknown formats; C58_refuted: standard input without -f is not refused but read as abif (the check compares a list with '-')."
 },
 "C63": {
  "note": "C63_score for every Scorable model with ballotcount; C63_no_candidates: IndexError without candidates. texts compared character by character."
 },
 "C64": {
  "note": "Whole report text for every scorable ranked model with at least two candidates."
 },
 "C65": {
  "note": "C65_exact: exactly which candidate the report names — the highest program score, among those the most wins, among those the first in the table; C65_partial: it has the highest program score; C65_refuted: other tied candidates are not named. C65_nobody: when and how the choice of winners fails."
 },
 "C66": {
  "note": "Whole text for every model."
 },
 "C67": {
  "note": "C67_exact / C67_text: the STAR section is printed exactly when the first entry of the first (largest, for text) ballot line carries a rating; C67_partial: all entries rated, or none; C67_refuted: only the first entry of the first ballot is looked at."
 },
 "C68": {
  "note": "C68_partial: missing files, no dependence on anything but the named files, both files of San Francisco format used; C68_refuted: otherwise all files but the last are ignored; C68_sf_one: IndexError for San Francisco format from one file or standard input."
 },
 "C69": {
  "note": "C69_modifiers, C69_default about whole runs of the tool."
 },
 "C70": {
  "note": "Sections of the text output, including errors."
 },
 "C71": {
  "note": "C71_abif: abif is the conversion of C60; C71_unsupported; C71_refuted: metadata is dropped for preflib (the debtally part is C44's subject). C71_formats covers every format; C71_description_refuted: a description with an ampersand is lost.",
  "status": "partial"
 },
 "C59": {
  "note": "C59_escape, C59_injective: html.escape, for every string. C59_page_partial: the page is one pre element without further tags and shows the report exactly when it has no special character; C59_refuted: otherwise it is escaped twice."
 },
 "C07": {
  "note": "C07_partial: quoted candidates with a rating are recorded like bare ones; C07_refuted: a quoted candidate without rating is dropped; C07_exact, C07_ranks: for every voteline, what is recorded instead (the candidates left take the line's delimiters in order); C07_iff: all candidates are recorded exactly when none is quoted without a rating."
 },
 "C41": {
  "note": "C41_rows_partial: rows, ranks and ids unless a candidate has the token 'voterid' (C41_voterid_candidate); C41_count, C41_success, C41_bad_qty, C41_generated_ids/form for every model; C41_id_collision: a generated id can equal a given one. C41_errors: which exception the first bad voteline ends in."
 },
 "C45": {
  "note": "C45_distinct_partial: tokens are distinct for names that are already good tokens, in all importers; C45_preflib says exactly when preflib tokens collide; C45_*_collision: collisions."
 },
 "C46": {
  "note": "C46_length and C46_short for every name; C46_chars_partial unless the name ends with a line feed (C46_newline shows the failure). Debian option names: C46_nota_* (the phrase \"none of the above\" in any case becomes NOTA). C46_exact: exactly which token a name gets (runs of other characters become one underscore, WRITE_IN_ becomes wi_, cut at max_length)."
 },
 "C72": {
  "note": "Values without floats (the tool writes none into a jabmod). Every model any reader produces has distinct keys (cliModel_keys), so C72_cli has no hypothesis on the model.",
  "extra": [
   "Verif.cliModel_keys"
  ]
 },
 "C73": {
  "note": "git clone/pull and tar extraction are parameters; a link is modelled as a copy of what it leads to (C74 says when it does). C73_spec covers fetchspecs with web_urls.",
  "extra": []
 },
 "C74": {
  "note": "False of the code when abifloc has a directory part (C74_refuted): the link target is computed relative to abif_subdir, not to the directory of the link. C74_iff: it leads to the file exactly when there is no directory part, and where it leads in every case.",
  "extra": []
 },
 "C75": {
  "note": "StrictElection: distinct candidates, ranked entries, ranks below the program's infinity, quantities not negative, no empty token, no equal ranks; parsed_strictElection derives all but the last two for parsed texts.",
  "extra": [
   "Verif.Props.parsed_strictElection"
  ]
 },
 "C76": {
  "note": "C76_tie shows that all-way ties make outsiders co-winners, so the claim is about one of the winners.",
  "extra": []
 },
 "C77": {
  "note": "Proved for every ranked non-empty ballot (hence for parsed text; an empty ballot raises IndexError) and for unranked ballots with int ratings whose first rating is not 0; false when the first candidate is rated 0 and for ratings stored as strings (C77_zero_refuted, C77_strings_refuted). C77_exact: what the call does with every ballot, each error included."
 },
 "C78": {
  "note": "The reading of one line is Spec.readMeta, independent of the regular expression (Lib/MetaLine proves they agree on every line). Findings: values in single quotes keep the closing quote (C78_single_quotes); a value with any other character makes the line meaningless (C78_lost)."
 },
 "C79": {
  "note": "Exact characterisation; C79_refuted: a title with a character outside ASCII is lost. Keys that start with a blank are left out. C79_plain: the same with the condition on tokens stated on the text alone."
 },
 "C80": {
  "note": "-f sftxt needs two inputs (C68), -f widj never works (C49); both are left out. json with indentation, texttable, graphviz and BeautifulSoup are parameters."
 },
 "C81": {
  "note": "os.path.join and os.path.dirname; symbolic links and '..' are not interpreted (parts are compared as written)"
 },
 "C82": {
  "note": "C82_refuted: a name whose token has a character that is not url-safe (Pat O'Brien) is lost in the converted file; proved for the others, under the conditions of C43 and C44 C82_preflib_names, C82_debtally_names: without the condition on names, exactly which names are kept, replaced by the token, or lost."
 },
 "C83": {
  "note": "for texts shorter than 2^61 characters where rank sums matter; a text accepted iff C09_accepted, so the merged text of two accepted texts is accepted"
 },
 "C84": {
  "note": "instant runoff: ranks below 9999999999; with equal rankings the order of the lines does matter (C36_refuted)"
 },
 "C85": {
  "note": "for instant runoff the renaming keeps the empty token (the program treats it as no candidate)"
 },
 "C86": {
  "note": "holds although ties count double (C22)"
 },
 "C87": {
  "note": "C87_json: the json output in full (C87_json_empty: a contest without lines gives one ballot of nobody); C87_urlencoded_partial and C87_csv96_partial: the other two for ballots of at least three lines, whose first three are shown; C87_short: a shorter ballot is an IndexError; C87_refuted: a fourth choice is dropped and a line naming nobody is a vote for 'None'. C87_imagelines_refuted: --imagelines with urlencoded or csv96 ends in a KeyError as soon as there is a line."
 },
 "C88": {
  "note": "C88_contest_partial, C88_outfile_partial, C88_format: proved for json, urlencoded and csv96; C88_contest_ignored, C88_outfile_ignored, C88_refuted: the abif and jabmod outputs ignore --contestid, and are printed with -o, leaving the file empty."
 },
 "C89": {
  "note": "partial because the code lacks it: subprocess.run is called without check, so failures of git are never noticed (C89_status_ignored_refuted), and when git is not installed the working directory is not restored (C89_missing_refuted)."
 },
 "C90": {
  "note": "partial because of the code: a tied opponent counts as two ties (C90_wlt_partial shows the numbers printed), and -t json without a choosing modifier prints a sentence that is not JSON (C90_choose_refuted). Everything else is proved."
 },
 "C91": {
  "note": "The list is characterised by an iff. C91_refuted: a tag without a known beginning is taken apart into its characters (set.update on a string), not passed through; and the fixed tags are computed but never used (the tags shown are the original ones). YAML output is not modelled.",
  "status": "partial"
 },
 "C92": {
  "note": "C92_json_refuted: the test `args.outfmt == 'svg' or 'dot'` is always true, so --outfmt json never prints the counts; graphviz itself (the function from graph and format to text) is a parameter.",
  "status": "partial"
 },
 "C93": {
  "note": "Pieces/FieldsOf/Encodes are independent relations; lineFields_exist shows every text has its fields, so C93_import speaks about every text."
 },
 "C94": {
  "note": "Composition of C15/C42 with C84/C24. The exportable conditions are those of C14/C15 (outside them the conversion changes the election, C14_refuted, C15_refuted). C94_nameq_refuted: ratings and unlisted candidates are lost by nameq."
 },
 "C95": {
  "note": "C95_settles; C95_once_refuted and C95_quote_refuted show that one conversion is not enough and that an accepted text with an unmatched quote is converted to a text the tool rejects. C95_text: the same stated on the text alone."
 },
 "C96": {
  "note": "The mains after argparse. What was proved about abiftool's output (C70, C72, C80, C90 …) carries over through these equalities. C96_score_fails: scorestar fails with the exception of the abiftool STAR run."
 },
 "C97": {
  "note": "Two theorems (`_refuted`) show what fails: the majority criterion for both methods and participation for STAR; this is how the methods are, not a defect of the code."
 },
 "C98": {
  "note": "Full statement proved for every schedule; the negative parts (tie, monotonicity, participation) are theorems about concrete texts, read by the modelled parser. C98_support (mono-add-top): further ballots topped by the sole winner keep it winning; C98_support_tied_refuted: not so for a tied winner."
 },
 "C99": {
  "note": "C99_output (elections as read from ballots, given that texttable, graphviz and BeautifulSoup answer), C99_parsed, C99_consolidated, C99_run (the whole run), C99_ordinary. Shown by example: an election whose largest group of ballots is blank has no STAR report."
 },
 "C100": {
  "note": "C100_read, C100_exact: a text is read as a fetchspec exactly if it is JSON text of a document that describes it; C100_refused, C100_errors: everything else is refused and nothing has happened; C100_no_members: an archive entry without archive_subfiles."
 },
 "C101": {
  "note": "False of the code: the import adds a candidate `cand0` without a name, so html and html_snippet always raise TypeError (C101_page, C101_refuted), and so does IRV when it is among several winners (C101_irv). C101_run_partial: the other outputs are as C99 says."
 },
 "C102": {
  "note": "The word \"--\" is not modelled (argparse treats what follows it as files); argparse as in Python 3.12 or later."
 },
 "C103": {
  "note": "The elections are those that can be written with the well-formed candidates of C05-C07 (so quoted candidates only with points), no candidate twice on a ballot, and commas not mixed with > and =. The command is written with -f, -t and -m and the file last; C102 says which other command lines mean the same. Text reports (Props/PaperText): candlist, score, STAR, Copeland, IRV, and the Condorcet and majority winners."
 },
 "C27": {
  "note": "Python's floats are modelled (Py/Float: IEEE 754 double, round to nearest, ties to even; Lib/Float proves it the nearest double).  C27_inexact: that the scaled scores sum exactly to the target is false of the code (1:A/1,B/5 with target 50 sums to 50 + 2^-47)."
 },
 "C104": {
  "note": "The bound is needed: C104_refuted (18014398509481986 ballots, a tie in exact arithmetic, the program declares one of the two the winner), C104_overflow (a line of 10^400 ballots makes the program crash). C28-C38 and the other IRV theorems are about the exact count and hold of the program through C104_exact."
 },
 "C105": {
  "note": "The functions are transcribed once more with objects and references (deepcopy with its memo, in-place deletion, shared preferences); C105_irv/_pairwise/_score/_ratings: same answer as on values, every old object untouched; C105_consolidate: exactly one object changes; C105_consolidate_changes: the caller sees it; C105_session: any sequence of calls; C105_place and C105_parsed: the hypotheses are met by all models and all parsed texts."
 },
 "C106": {
  "note": "False of the code: every round is a nested call. C106_exact says for every election and every limit whether there is a result (rounds <= limit) or a RecursionError; C106_partial: enough for elections with no more candidates than nested calls; C106_refuted: for every limit up to ten thousand (CPython: 1000) a text with ordinary votelines whose count has a winner on paper and no result. Missing: elections with more rounds than nested calls."
 },
 "C107": {
  "note": "C107_every: every list without brackets and double quotes is pieces between delimiters; C107_exact: what is read from any of them; C107_refused: exactly which are refused (IndexError); C107_text: the same for whole texts; C107_trailing: a delimiter at the end changes nothing; C107_strict_partial: blank entries do no harm between \">\" alone; C107_refuted: they do with mixed delimiters (\">A=B\" ranks A above B, \"A=>B\" ranks them equal)."
 },
 "C09": {
  "note": "C09_accepted: exactly which texts are accepted; C09_first_error: a text with an unreadable voteline is refused with the error of the first one (C107 says which lists are unreadable when there is no quoting). C09_list_errors, C09_text_errors: a refused list or text ends with IndexError, or with TypeError if the list has a `[`, and with nothing else."
 },
 "C10": {
  "note": "C10_storecomments: texts without a {comments: ...} line; C10_comments_key: every text, with the exact condition for the AttributeError."
 },
 "C19": {
  "note": "C19_consolidate: consolidation is one of the regroupings."
 },
 "C108": {
  "note": "C108_clones: both directions; C108_schedule: one election under two ways to resolve ties; C108_even_refuted: that the count be clear cut is needed (two candidates with together as many votes as a third are eliminated with no tie to resolve, the merged candidate is tied); C108_spoiler_refuted: when the count with all candidates ends in a reported tie, candidates of other parties are reported too."
 },
 "C109": {
  "note": "C109_refines: with a limit the reader gives the unlimited result or a ValueError; C109_short: no long run of digits, same result; C109_quantity: a quantity beyond the limit is refused; C109_items, C109_rating: in a preference list of items only the ratings count, digits in tokens and brackets do not, and a rating beyond the limit is refused. All other theorems about the reader speak of the unlimited reader, and by C109_short hold of the limited one for texts without a run of more than 4300 digits."
 },
 "C110": {
  "note": "C110_parse, C110_parse_list: exactly the well-formed command lines of any program whose options are sound (C110_sound: those of all programs here) are understood; C110_onefile, C110_irv, C110_copedot, C110_sf, C110_fetch, C110_core: what each program then does; C110_help, C110_refused; C110_core_forms, C110_forms: the usual spellings of every option. C110_abif_refuted: fetchmgr's --abif, described like a switch, takes a value: `fetchmgr.py --abif spec.json` processes nothing and ends with status 1 (defect). The word -- is not modelled."
 },
 "C111": {
  "note": "C111_exact: exactly which texts are read as which election; C111_others: everything else is an error of json.loads or outside the model; C111_same: the output depends on the election described only (any two documents, standard input). Documents with members missing or of unexpected types (where the Python program fails later, or not at all, depending on the output format) are outside the model."
 },
 "C112": {
  "note": "False of the code (C112_refuted): `3:A>[Bob Hill>C=D` is read as a ballot for A alone, `3:[Ann Lee>B` as an empty ballot. C112_exact: exactly what happens: everything from the bracket on is left out and the ballot is that of the list before it, unless two delimiters in the lost part (or one and an end) have nothing between them, which is a TypeError. C112_text: the same for whole texts.",
  "status": "partial"
 },
 "C113": {
  "note": "C113_list for lists, C113_text for texts (the recorded prefstr excepted). C113_slash: blanks before a slash belong to the candidate; C113_refuted: so `a /5` and `a/4` are votes for two candidates, which no user expects."
 },
 "C114": {
  "note": "C114_score is exact, with the error of the first entry that cannot be counted; C114_export: all numbers, written; first entry without a number is such a text, ValueError; C114_nameq is exact; C114_width is exact for the two usual spellings. The texts are specified independently of the model of int() (Spec/WholeNumber.lean), which C93 and C102 use directly."
 },
 "C115": {
  "note": "C115_lines, C115_abif, C115_formats, C115_cli: endings do not matter. C115_stray is exact for any place in the text; C115_bom is the case of the byte order mark, C115_bom_refuted shows that it loses a voteline without an error (a code defect)."
 },
 "C116": {
  "note": "C116_pairwise, C116_records, C116_winners, C116_criterion, C116_scores. C116_criterion needs that no two candidates tie: C116_criterion_refuted shows a sole Copeland winner both ways, due to a tie counting as a whole win (C22). C116_irv_refuted: instant runoff."
 },
 "C117": {
  "note": "C117_irv, C117_pairwise, C117_copeland, C117_scores, C117_star; C117_text for the text. C117_star needs two candidates with a score above zero (C117_star_refuted: otherwise the candidate on no ballot may become a finalist)."
 },
 "C118": {
  "note": "C118_majority, C118_all_tied, C118_two, C118_two_tied, C118_star_two; C118_four_refuted: one text with a different winner under each of the four methods, so nothing of the kind holds for four candidates."
 },
 "C119": {
  "note": "C119_text (both values of add_ratings), C119_pairwise, C119_scores, C119_star, C119_irv; C119_irv_refuted: with ties the condition on the place of the blank line is needed."
 },
 "C120": {
  "note": "C120_outputs: both outputs for every text read, in both cases of the total. C120_refuted: for every limit there is a text that is read and cannot be written."
 },
 "C121": {
  "note": "C121_score, C121_star (what the commands print), C121_rows, C121_total, C121_condorcet, C121_loser; C121_loser_refuted and C121_rows_refuted: the conditions (complete ballots, no ties) are needed."
 },
 "C122": {
  "note": "C122_middle, C122_unbeaten, C122_odd (Black's median theorem for the Copeland count of the program), C122_transitive (no cycles), C122_nearest (distances); C122_irv_refuted shows the centre squeeze of the instant-runoff count, C122_cycle_refuted the voters' paradox without a line. Ballots that leave out more than one candidate on a side of the voter's place are not peaked in the sense used here."
 },
 "C123": {
  "note": "C123_pairs, C123_points (on paper), C123_winners (of the election read by the program); C123_irv_refuted: ballots with several approvals are left out of the instant runoff, so the least approved candidate can win."
 },
 "C124": {
  "note": "C124_text (files), C124_irv, C124_copeland, C124_score, C124_star (exact equality of the results up to the numbers, errors included). C124_zero_refuted shows the hypothesis k > 0 is needed."
 },
 "C125": {
  "note": "C125_text (texts), C125_majority, C125_unbeaten, C125_copeland; C125_irv_refuted, C125_star_refuted and C125_copeland_refuted are limits of the methods, not of the code. On the command line (two papers one after the other): C125_cli_pairs, C125_cli_scores, C125_cli_majority, C125_cli_condorcet."
 },
 "C126": {
  "note": "C126_irv, C126_copeland, C126_copeland_set; C126_text and C126_paper for .abif files with names crossed off, C126_cli for what the command prints. C126_irv_refuted and C126_copeland_refuted are limits of the methods, not of the code."
 },
 "C127": {
  "note": "C127_third, C127_condorcet; C127_paper for what the command prints. C127_refuted shows that exactly a third of the voters is not enough (a limit of the method)."
 },
 "C128": {
  "note": "C128_pairs, C128_duels, C128_condorcet, C128_majority, C128_irv, C128_score, C128_star; C128_refuted shows that a margin of 2k is not enough and that the margin of the last runoff round alone says nothing (limits of the methods). C128_exact: for head-to-head winners the bound is exact for every election. C128_majority_exact: likewise for majorities of first choices, where there is another candidate."
 },
 "C129": {
  "note": "C129_margins, C129_duels (ties are counted twice, see C21 and C90)."
 },
 "C130": {
  "note": "C130_order; C130_score: the score winner of the same file may be any candidate."
 }
}