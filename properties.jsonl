{"id": "C01", "title": "Ballot count is the sum of the voteline quantities", "statement": "If convert_abif_to_jabmod(text) returns a model, then metadata.ballotcount equals the sum of qty over the returned votelines, whatever metadata lines the text contains (an explicit {ballotcount: N} line never overrides the recount; it is kept under ballotcount_abif_metadata).", "quantifier": "every input text, every flag combination (cleanws, add_ratings, storecomments)", "why_tests_cant": "A test fixes one file; the claim must survive every interleaving of metadata, candidate, comment and vote lines.", "anchors": ["abiflib/core.py:convert_abif_to_jabmod", "abiflib/core.py:_process_abif_prefline", "abiflib/core.py:_process_abif_metadata"]}
{"id": "C02", "title": "Parsed votelines are exactly the text's votelines, sorted by quantity", "statement": "The returned votelines are a permutation of the lines of the text of the form '<digits>:<prefs>' (one voteline each, with the quantity and preferences of that line), in non-increasing order of qty, and lines of equal qty keep their order in the file.", "quantifier": "every accepted input text", "why_tests_cant": "Completeness and stability of the ordering quantify over all files.", "anchors": ["abiflib/core.py:convert_abif_to_jabmod", "abiflib/core.py:_process_abif_prefline"]}
{"id": "C03", "title": "The candidate table covers every ballot and candlines win", "statement": "In a parsed model every candidate named on any voteline is a key of candidates; the keys are exactly the tokens of candidate lines plus the tokens named on votelines, in order of first appearance; a token declared by candidate lines maps to the last-declared description unless it first appears on a voteline and is never declared, when it maps to itself.", "quantifier": "every accepted input text", "why_tests_cant": "Membership must hold for any mixture and order of lines, including a candline after or before its use.", "anchors": ["abiflib/core.py:_process_abif_candline", "abiflib/core.py:_process_abif_prefline"]}
{"id": "C04", "title": "Every preference in a parsed model has a positive rank", "statement": "In a model returned by convert_abif_to_jabmod every (voteline, candidate) entry has an integer rank >= 1, so the tallies never see a missing rank.", "quantifier": "every accepted input text, every malformed mix of delimiters, ratings, brackets and quotes", "why_tests_cant": "The parser has many fall-through branches; only an argument over all token sequences rules out a missing rank.", "anchors": ["abiflib/core.py:_parse_prefstr_to_dict", "abiflib/core.py:_add_ranks_to_prefjab_by_rating"]}
{"id": "C05", "title": "Ranked prefstr: rank is one plus the number of '>' before the candidate", "statement": "For a prefstr that is a sequence of distinct candidate tokens (bare or [bracketed], each optionally with /rating and surrounding spaces) joined by '>' and '=', parsing yields exactly those candidates in that order and each candidate's rank is 1 plus the number of '>' to its left, with the ratings as written (a zero rating is dropped).", "quantifier": "all token lists, all delimiter lists, all spacings and ratings", "why_tests_cant": "Index alignment between the delimiter list and the token list must hold for every length.", "anchors": ["abiflib/core.py:_parse_prefstr_to_dict", "abiflib/core.py:_extract_candprefs_from_prefstr", "abiflib/core.py:_determine_rank_or_rate"]}
{"id": "C06", "title": "Comma prefstr: rank is the dense rank of the rating", "statement": "For a prefstr 'A/ra, B/rb, ...' with distinct tokens, each candidate's rank is 1 plus the number of distinct ratings on the line strictly above its own (a missing rating counts as 0).", "quantifier": "all token lists and all ratings", "why_tests_cant": "Dense ranking over all orders and tie patterns.", "anchors": ["abiflib/core.py:_add_ranks_to_prefjab_by_rating", "abiflib/core.py:_parse_prefstr_to_dict"]}
{"id": "C07", "title": "Quoted candidates are kept like bare ones", "statement": "A candidate written in double quotes on a voteline is recorded with the same rank as the same candidate written bare or in brackets, with or without a rating.", "quantifier": "all quoted tokens and positions", "why_tests_cant": "Which token shapes are dropped is invisible to a test that does not use that shape.", "anchors": ["abiflib/core.py:_extract_candprefs_from_prefstr"]}
{"id": "C08", "title": "Comments, blank and unrecognised lines do not change the result", "statement": "Inserting a line that is blank, a pure comment, or matches none of the candline/metadata/voteline forms anywhere in the text leaves the parsed model unchanged (storecomments off), and appending '#...' directly to a line without '#' changes nothing but that voteline's comment/voterid fields.", "quantifier": "every text, every insertion point, every such line", "why_tests_cant": "Quantifies over insertion points and line contents.", "anchors": ["abiflib/core.py:convert_abif_to_jabmod", "abiflib/abifregex.py:COMMENT_REGEX"]}
{"id": "C09", "title": "Empty input and input without votelines are rejected, nothing else is silently empty", "statement": "convert_abif_to_jabmod raises ABIFVotelineException on the empty string and on any text in which no line is a voteline (provided parsing gets that far); if it returns, the model has at least one voteline.", "quantifier": "every input text", "why_tests_cant": "Must hold for every text, including text of only metadata and comments.", "anchors": ["abiflib/core.py:convert_abif_to_jabmod"]}
{"id": "C10", "title": "storecomments records exactly the comments and changes nothing else", "statement": "With storecomments=True the metadata gains a comments list with one (zero-based line number, comment text) entry per line containing '#', in file order (and no key when there is none); all votelines, candidates and the ballot count are the same as with storecomments=False. In a text that has a metadata line keyed 'comments', a comment on a later line makes storecomments=True fail (AttributeError), and otherwise the line's value replaces the stored comments; everything else is still the same as with storecomments=False.", "quantifier": "every text (the comments list: every text without a metadata line keyed 'comments')", "why_tests_cant": "Quantifies over all files.", "anchors": ["abiflib/core.py:_process_abif_comment_line", "abiflib/core.py:convert_abif_to_jabmod"]}
{"id": "C11", "title": "cleanws is the same as stripping leading whitespace from each line", "statement": "Parsing with cleanws=True gives the same result as parsing, with cleanws=False, the text obtained by removing leading whitespace from every line.", "quantifier": "every text and flag combination", "why_tests_cant": "Equivalence of two programs over all inputs.", "anchors": ["abiflib/core.py:convert_abif_to_jabmod"]}
{"id": "C12", "title": "add_ratings never changes ranks, quantities or candidates, and rates every entry", "statement": "With add_ratings=True the result differs from add_ratings=False only in ratings and the is_ranking_to_rating flag; every entry has a rating; if no entry had one the rating is (number of candidates - rank), otherwise entries without a (nonzero) rating get 0 and nonzero ratings are untouched.", "quantifier": "every accepted text", "why_tests_cant": "Must hold for partial ratings on any subset of lines.", "anchors": ["abiflib/core.py:_add_ratings_to_jabmod_votelines"]}
{"id": "C13", "title": "Voter ids on votelines are carried into the model", "statement": "A voteline whose comment starts with ##VID:<id> (no blanks in id) gets voterid <id>; no other voteline gets a voterid.", "quantifier": "every voteline text", "why_tests_cant": "Quantifies over all comments and identifiers.", "anchors": ["abiflib/core.py:_process_abif_prefline", "abiflib/abifregex.py:VOTERID_REGEX"]}
{"id": "C14", "title": "Voteline export/import round trip preserves the ballot", "statement": "Re-parsing the .abif voteline that export produces for a ballot gives back the same quantity, the same candidates, the same weak order of candidates and the same ratings.", "quantifier": "every voteline with printable tokens", "why_tests_cant": "Parser and printer must agree on every token, rank pattern and rating.", "anchors": ["abiflib/core.py:_get_votelinestr_from_jabvoteline", "abiflib/core.py:_prefstr_from_ranked_line", "abiflib/core.py:_prefstr_from_ratings", "abiflib/core.py:_parse_prefstr_to_dict"]}
{"id": "C15", "title": "Whole-file export/import round trip", "statement": "Re-parsing convert_jabmod_to_abif(model) gives a model with the same ballot count, the same candidate table and the same votelines up to the sort by quantity.", "quantifier": "every model in the printable domain", "why_tests_cant": "A composition over all files; counterexamples hide in quoting rules.", "anchors": ["abiflib/core.py:convert_jabmod_to_abif", "abiflib/core.py:convert_abif_to_jabmod", "abiflib/abifregex.py:CANDLINE_REGEX"]}
{"id": "C16", "title": "Candidate token quoting is recoverable", "statement": "The printed form of a candidate token (bare, or bracketed when it has a character outside [A-Za-z0-9_.~-]) is read back as the same token.", "quantifier": "every nonempty token without line breaks, leading/trailing blanks, '#' and the characters []>=,\"", "why_tests_cant": "Quantifies over all tokens.", "anchors": ["abiflib/core.py:_abif_token_quote", "abiflib/core.py:_extract_candprefs_from_prefstr"]}
{"id": "C17", "title": "Pairwise matrix counts preferring voters", "statement": "pairwise_count_dict(model)[a][b] for a != b is the total qty of votelines on which a is ranked strictly above b, where an unlisted candidate is below every listed one; the diagonal is None and rows and columns are exactly the candidates in table order.", "quantifier": "every model all of whose entries have ranks", "why_tests_cant": "Exact functional correctness over all ballots.", "anchors": ["abiflib/pairwise.py:pairwise_count_dict"]}
{"id": "C18", "title": "Pairwise totals are bounded by the ballots", "statement": "For a != b, matrix[a][b] + matrix[b][a] plus the qty of votelines indifferent between a and b equals the total qty.", "quantifier": "every ranked model", "why_tests_cant": "Conservation law over all inputs.", "anchors": ["abiflib/pairwise.py:pairwise_count_dict"]}
{"id": "C19", "title": "Pairwise, Copeland and score tallies do not depend on voteline order or grouping", "statement": "Permuting votelines, splitting a voteline into several with the same preferences, or consolidating gives the same pairwise matrix, win-loss-tie table and scores.", "quantifier": "every model whose listed candidates all have a rank, and every permutation/regrouping", "why_tests_cant": "Quantifies over all permutations.", "anchors": ["abiflib/pairwise.py:pairwise_count_dict", "abiflib/pairwise.py:winlosstie_dict_from_pairdict", "abiflib/scorestar.py:basic_score_result_from_abifmodel", "abiflib/core.py:consolidate_jabmod_voteline_objects"]}
{"id": "C20", "title": "Pairwise counting is neutral between candidates", "statement": "Renaming candidates by an injective map renames rows and columns of the matrix and changes no number.", "quantifier": "every model, every injective renaming", "why_tests_cant": "Quantifies over all renamings.", "anchors": ["abiflib/pairwise.py:pairwise_count_dict"]}
{"id": "C21", "title": "Win-loss-tie records add up", "statement": "For each candidate wins/losses are the numbers of opponents strictly beaten by/beating it in the matrix and wins + losses + ties equals the number of opponents; total wins equal total losses; the table is sorted by wins, descending.", "quantifier": "every matrix", "why_tests_cant": "Double-counting only shows when a tie exists.", "anchors": ["abiflib/pairwise.py:winlosstie_dict_from_pairdict"]}
{"id": "C22", "title": "A tie is worth half a win in Copeland scoring", "statement": "A candidate's Copeland score is its number of pairwise wins plus half the number of opponents it ties.", "quantifier": "every matrix", "why_tests_cant": "Only visible on inputs with pairwise ties.", "anchors": ["abiflib/pairwise.py:calc_Copeland_scores", "abiflib/pairwise.py:winlosstie_dict_from_pairdict"]}
{"id": "C23", "title": "Copeland winners are exactly the top scorers; a Condorcet winner is the unique winner", "statement": "get_Copeland_winners returns exactly the candidates with maximal Copeland score (nonempty when there is a candidate), the reported winner is one of them, and if some candidate beats every other pairwise it is the only winner.", "quantifier": "every model", "why_tests_cant": "Optimality over all candidates and matrices.", "anchors": ["abiflib/pairwise.py:get_Copeland_winners", "abiflib/pairwise.py:calc_Copeland_scores", "abiflib/pairwise.py:Copeland_report"]}
{"id": "C24", "title": "Scores are weighted rating sums", "statement": "Each candidate's score is the sum over votelines of qty x rating (missing rating 0) and votercount the total qty of votelines rating it above zero.", "quantifier": "every model whose voteline candidates are in the table", "why_tests_cant": "Exact functional correctness over all ballots.", "anchors": ["abiflib/scorestar.py:basic_score_result_from_abifmodel"]}
{"id": "C25", "title": "Score ranking is a dense ranking by score", "statement": "ranklist is a permutation of the candidates sorted by score descending with ties in table order; rank numbers start at 1, equal scores share a rank, and a candidate's rank is 1 plus the number of distinct higher scores.", "quantifier": "every model", "why_tests_cant": "All tie patterns.", "anchors": ["abiflib/scorestar.py:enhanced_score_result_from_abifmodel"]}
{"id": "C26", "title": "STAR: finalists are the two top scorers and the winner is preferred by more voters", "statement": "The finalists are two distinct candidates whose scores are at least every other candidate's; fin1votes/fin2votes are the pairwise counts; the winner is the finalist with more, or a tie is announced iff equal; final_abstentions is the number of voters indifferent between them and is never negative; fewer than two candidates is an error.", "quantifier": "every ranked model with consistent ballotcount", "why_tests_cant": "Holds for all elections only if the runoff uses the same pair and direction.", "anchors": ["abiflib/scorestar.py:STAR_result_from_abifmodel"]}
{"id": "C27", "title": "Scaled scores are proportional and sum to the target, up to floating-point rounding", "statement": "scaled_scores returns for each candidate score x target / total, up to the rounding of Python's floats (each within one part in 2^51 of the exact value); these sum to the target scale within (number of candidates + 2) parts in 2^52; and a zero total is an error rather than a wrong answer.", "quantifier": "every model with non-negative scores (in particular every parsed text without add_ratings) and every positive target, sums and targets up to 2^1000", "why_tests_cant": "Normalisation must hold for all inputs.", "anchors": ["abiflib/scorestar.py:scaled_scores"]}
{"id": "C28", "title": "IRV always finishes with a nonempty winner set from the candidates", "statement": "For every parsed model with at least one candidate, and for every outcome of the random tie-break and every set-iteration order, the IRV count returns without exception after at most as many rounds as candidates, and its winner list is nonempty and contained in the candidates. (Python's recursion limit is the subject of C106.)", "quantifier": "every model, every random choice, every hash order", "why_tests_cant": "Termination and totality over all nondeterministic schedules.", "anchors": ["abiflib/irvtally.py:_irv_count_internal", "abiflib/irvtally.py:IRV_dict_from_jabmod"]}
{"id": "C29", "title": "IRV rounds account for every ballot", "statement": "In every round startingqty = votes credited to candidates + exhaustedqty + overvoteqty, the next round starts with startingqty - overvoteqty, and round 1 starts with the total qty; the reported countedqty equals the votes credited to candidates.", "quantifier": "every model and every schedule", "why_tests_cant": "Conservation across all rounds.", "anchors": ["abiflib/irvtally.py:_irv_count_internal"]}
{"id": "C30", "title": "IRV credits each counted ballot to its highest-ranked continuing candidate", "statement": "In each round a candidate's count is the total qty of ballots whose unique top-ranked continuing candidate it is; ballots tied at the top are overvotes and ballots listing no continuing candidate are exhausted.", "quantifier": "every model and schedule", "why_tests_cant": "The definition of IRV; must hold in every round for all ballots.", "anchors": ["abiflib/irvtally.py:_get_valid_topcand_qty", "abiflib/irvtally.py:_discard_toprank_overvotes", "abiflib/irvtally.py:_eliminate_cands_from_votelines"]}
{"id": "C31", "title": "IRV ends with a majority or an all-way tie", "statement": "In the last round either every continuing candidate has the same count and all of them are the winners, or the winner is a single candidate with more than half of the votes credited in that round.", "quantifier": "every model and schedule", "why_tests_cant": "Terminal condition for all runs.", "anchors": ["abiflib/irvtally.py:_irv_count_internal"]}
{"id": "C32", "title": "IRV majority criterion", "statement": "If in the first round some candidate is credited with more than half of the credited votes, the count stops there and it is the sole winner.", "quantifier": "every model and schedule", "why_tests_cant": "Voting-theory criterion over all profiles.", "anchors": ["abiflib/irvtally.py:_irv_count_internal"]}
{"id": "C33", "title": "IRV eliminates only last-place candidates", "statement": "In a non-final round the eliminated candidates all have the round's minimum count; one candidate is eliminated, or all tied-last candidates together and then only if their votes together do not exceed the next-higher candidate's count; the next round's candidates are exactly the others; nobody eliminated returns.", "quantifier": "every model and schedule", "why_tests_cant": "Must hold in all rounds for every tie pattern.", "anchors": ["abiflib/irvtally.py:_irv_count_internal"]}
{"id": "C34", "title": "IRV discards every overvoted ballot", "statement": "overvoteqty of a round is the total qty of ballots that entered the round with two or more candidates tied at the top rank, and no such ballot is credited to any candidate in that round.", "quantifier": "every model", "why_tests_cant": "Only adjacent overvoted lines expose a deletion-during-iteration error.", "anchors": ["abiflib/irvtally.py:_discard_toprank_overvotes"]}
{"id": "C35", "title": "IRV result is deterministic when no random elimination happens", "statement": "If one run of the count performs no random elimination, then every run has the same sequence of round counts (as maps) and the same winner set and winner string, whatever the hash order or random seed.", "quantifier": "every model, all pairs of schedules", "why_tests_cant": "A two-run (hyper)property over schedules.", "anchors": ["abiflib/irvtally.py:_irv_count_internal"]}
{"id": "C36", "title": "IRV does not depend on the order of votelines", "statement": "Permuting the votelines does not change round counts, overvotes, or winners (same tie-breaks).", "quantifier": "every model and permutation", "why_tests_cant": "Quantifies over permutations.", "anchors": ["abiflib/irvtally.py:_irv_count_internal", "abiflib/irvtally.py:_discard_toprank_overvotes"]}
{"id": "C37", "title": "IRV round metadata labels are right", "statement": "top_voteqty is the largest and bottom_voteqty the smallest candidate count of the round, and all_eliminated is the union of the candidates eliminated in this and earlier rounds.", "quantifier": "every model and schedule", "why_tests_cant": "All rounds of all runs.", "anchors": ["abiflib/irvtally.py:_irv_count_internal"]}
{"id": "C38", "title": "Batch elimination is consistent with one-at-a-time elimination", "statement": "When ballots have no equal rankings, the candidates removed by a batch elimination could have been removed one at a time, each being in last place when removed, reaching the same state.", "quantifier": "every strict-ranking profile without a candidate whose token is the empty string", "why_tests_cant": "Statement about all profiles and elimination orders.", "anchors": ["abiflib/irvtally.py:_irv_count_internal"]}
{"id": "C39", "title": "Consolidation preserves the election", "statement": "consolidate_jabmod_voteline_objects keeps for every preference map the same total qty, leaves no two votelines with equal preference maps, keeps first-appearance order, and is idempotent.", "quantifier": "every model", "why_tests_cant": "Multiset equality over all inputs; relies on serialisation being injective.", "anchors": ["abiflib/core.py:consolidate_jabmod_voteline_objects"]}
{"id": "C40", "title": "JSON serialisation used as a grouping key is injective", "statement": "Two preference maps have the same json.dumps(..., sort_keys=True) string iff they are equal as maps.", "quantifier": "all preference maps, all unicode strings", "why_tests_cant": "Injectivity over an infinite domain.", "anchors": ["abiflib/core.py:consolidate_jabmod_voteline_objects"]}
{"id": "C41", "title": "csvrank output has one row per ballot with the right ranks", "statement": "get_ranking_output_csv produces a header plus exactly sum(qty) rows; each row carries the ranks of its voteline and the voteline's voterid or a generated one; generated ids are pairwise distinct; a voteline with qty <= 0 is an error.", "quantifier": "every model", "why_tests_cant": "Quantifies over all quantities.", "anchors": ["abiflib/core.py:get_ranking_output_csv"]}
{"id": "C42", "title": "nameq round trip", "statement": "convert_nameq_to_jabmod(convert_jabmod_to_nameq(m)) has one voteline of qty 1 per ballot of m, in order, with the same candidates and ranks; its ballotcount is the number of ballots.", "quantifier": "every ranked model, every unicode candidate name", "why_tests_cant": "Percent-encoding must invert for every string.", "anchors": ["abiflib/nameq.py:convert_nameq_to_jabmod", "abiflib/nameq.py:convert_jabmod_to_nameq"]}
{"id": "C43", "title": "preflib import keeps quantities and tiers", "statement": "Each 'N: i,{j,k},...' line becomes a voteline of quantity N whose tiers are the named alternatives in order; a number outside 1..n is an error.", "quantifier": "every preflib text", "why_tests_cant": "Index arithmetic and brace grouping for all lines.", "anchors": ["abiflib/preflib.py:convert_preflib_str_to_abif", "abiflib/preflib.py:_extract_rankings_from_preflib_str"]}
{"id": "C44", "title": "Debian tally import keeps each vote's order and voter id", "statement": "Each 'V: <digits> <id>' line becomes one voteline of quantity 1 carrying the voter id, ranking option i above option j iff its digit is smaller, '-' meaning unranked.", "quantifier": "every tally sheet", "why_tests_cant": "Quantifies over all sheets and option counts.", "anchors": ["abiflib/debtally.py:convert_debtally_to_abif", "abiflib/debtally.py:_extract_vline_rankings_from_tally_sheet"]}
{"id": "C45", "title": "Imported candidates keep distinct tokens", "statement": "Importers give different candidates different tokens, so no two candidates' votes are merged.", "quantifier": "all candidate name lists", "why_tests_cant": "Collisions only appear for particular names.", "anchors": ["abiflib/debtally.py:_get_short_option_names", "abiflib/preflib.py:convert_preflib_str_to_abif", "abiflib/sftxt.py:_short_token", "abiflib/util.py:utf8_string_to_abif_token"]}
{"id": "C46", "title": "Short tokens are bounded and clean", "statement": "utf8_string_to_abif_token returns at most max_length characters, all of them in [A-Za-z0-9_], so the token never needs quoting; a short alphanumeric name is returned unchanged.", "quantifier": "every string and length", "why_tests_cant": "Quantifies over all unicode strings.", "anchors": ["abiflib/util.py:utf8_string_to_abif_token", "abiflib/sftxt.py:_short_token"]}
{"id": "C47", "title": "San Francisco import groups image lines into ballots", "statement": "Image lines of the chosen contest are grouped into one ballot per maximal run of equal voter id, each ballot holds its lines' ranks, lines of other contests are ignored, and ballotcount and total qty equal the number of ballots.", "quantifier": "every well-formed master/ballot image pair", "why_tests_cant": "Grouping over all interleavings of contests.", "anchors": ["abiflib/sftxt.py:_sftxt_convert_to_ballots", "abiflib/sftxt.py:convert_sftxt_to_jabmod"]}
{"id": "C48", "title": "Fixed-width records are split at the specified columns", "statement": "read_sftxt_blob splits each line at the column boundaries of the field spec, the concatenation of the fields is the line's prefix, and a short line is an error.", "quantifier": "every line and spec", "why_tests_cant": "All widths and lines.", "anchors": ["abiflib/sftxt.py:sftxt_read_fieldspec", "abiflib/sftxt.py:read_sftxt_blob"]}
{"id": "C49", "title": "widj import succeeds on well-formed files", "statement": "convert_widj_to_jabmod on a widj object with candidates and inline_ballots returns a model with one voteline per ballot carrying qty and ratings.", "quantifier": "every well-formed widj object", "why_tests_cant": "Depends on a name that is looked up only when the function runs.", "anchors": ["abiflib/widjfuncs.py:convert_widj_to_jabmod", "abiflib/widjfuncs.py:_map_widj_ballots"]}
{"id": "C50", "title": "clean_dict removes sets and preserves the rest", "statement": "clean_dict's result contains no set anywhere reachable through dicts and lists, equals its input when the input has none, is idempotent, and keeps the elements of each set.", "quantifier": "every nested structure", "why_tests_cant": "Structural induction over unbounded nesting.", "anchors": ["abiflib/core.py:clean_dict"]}
{"id": "C51", "title": "Path update changes exactly the addressed value", "statement": "_modify_jabmod(m, (path, v)) makes the value at path v, leaves every other path unchanged, and errors when an intermediate key is missing.", "quantifier": "every nested structure, path and value", "why_tests_cant": "Get/put laws over all paths.", "anchors": ["abiflib/core.py:_modify_jabmod"]}
{"id": "C52", "title": "Text table cells show the matrix", "statement": "In the pairwise table the cell in row a, column b is the number of voters preferring a to b, rows and columns use the same order, which is the candidates by decreasing wins, and each row label shows that candidate's entry in the win-loss-tie table.", "quantifier": "every ranked model", "why_tests_cant": "Row/column alignment for all sizes.", "anchors": ["abiflib/textoutput.py:texttable_pairwise_and_winlosstie", "abiflib/textoutput.py:textgrid_for_2D_dict"]}
{"id": "C53", "title": "HTML table shows every matchup exactly once, with correct numbers and markers", "statement": "Each unordered pair of distinct candidates appears in exactly one cell with both counts, and a cell carries the dagger iff the column candidate's count does not exceed the row candidate's.", "quantifier": "every ranked model", "why_tests_cant": "Triangular layout for all sizes; marker handling at the end of the document.", "anchors": ["abiflib/html_output_pairwise.py:htmltable_pairwise_and_winlosstie"]}
{"id": "C54", "title": "Diagram draws every matchup towards the loser", "statement": "For every pair of distinct candidates the diagram has an edge from the candidate with more votes to the other, and both edges iff they tie.", "quantifier": "every matrix", "why_tests_cant": "All pairs and matrices.", "anchors": ["abiflib/vizelect.py:copecount_diagram"]}
{"id": "C55", "title": "Log configuration errors are reported and log lines are appended in order", "statement": "With a valid ABIFLIB_LOG every message is appended to the file in call order; with none, nothing is written; an invalid setting is reported on every use.", "quantifier": "every history of log calls and closes", "why_tests_cant": "A property of call histories.", "anchors": ["abiflib/devtools.py:LogfileSingleton"]}
{"id": "C56", "title": "Fetching never overwrites an existing download and is idempotent", "statement": "fetch_web_items downloads only files that are missing, writes only on HTTP 200, leaves existing files untouched, and a second run after complete success downloads nothing.", "quantifier": "every fetchspec, filesystem state and server behaviour", "why_tests_cant": "Histories of runs and failures.", "anchors": ["fetchmgr.py:fetch_web_items", "fetchmgr.py:fetch_url_to_subdir"]}
{"id": "C57", "title": "Each fetched file is converted with its own source format", "statement": "process_extfilelist converts each entry using its own srcfmt, or the fetchspec's default when it has none.", "quantifier": "every entry list", "why_tests_cant": "State carried from one loop iteration to the next.", "anchors": ["fetchmgr.py:process_extfilelist"]}
{"id": "C58", "title": "Command line picks the input format from -f or the extension", "statement": "abiftool uses -f if given, otherwise the text after the last '.' of the first file name, otherwise abif; an unsupported format is refused; stdin ('-') without -f is refused.", "quantifier": "every argument list", "why_tests_cant": "All file names.", "anchors": ["abiftool.py:main"]}
{"id": "C59", "title": "HTML escaping is complete", "statement": "The escaped text contains no raw <, >, & or quote character coming from the input and unescaping gives the input back; escaping character by character equals escaping the whole string.", "quantifier": "every string", "why_tests_cant": "Quantifies over all strings.", "anchors": ["abiflib/html_output_scorestar.py:html_score_and_star"]}
{"id": "C60", "title": "convert_text_to_abif output is re-readable", "statement": "Whenever convert_text_to_abif succeeds on abif input, its output is accepted by convert_abif_to_jabmod with the same ballot count.", "quantifier": "every accepted abif text", "why_tests_cant": "Closure of the format under the tool.", "anchors": ["abiflib/util.py:convert_text_to_abif"]}
{"id": "C61", "title": "IRV summary fields", "statement": "In the result of an IRV count, winnerstr is the winner's name, or with several winners their names joined by ' and ' in token order; has_tie is true exactly when some round recorded tied bottom candidates.", "quantifier": "every model the count accepts, every schedule of random and set-order choices", "why_tests_cant": "Depends on the run's rounds and on every candidate table.", "anchors": ["abiflib/irvtally.py:IRV_dict_from_jabmod"]}
{"id": "C62", "title": "IRV text report is complete", "statement": "The text report of a count has one block per round in order, each with a line for every candidate counted in that round with its votes and a line with the eliminated candidates in alphabetic order, and ends with the sentence naming the winners.", "quantifier": "every countable model, every schedule", "why_tests_cant": "Quantifies over all runs.", "anchors": ["abiflib/irvtally.py:get_IRV_report"]}
{"id": "C63", "title": "Score report", "statement": "score_report has one line for every candidate, ordered by score from the highest down (equal scores in table order), each with score, number of raters and name, the number of voters, and names a candidate with the highest score as winner.", "quantifier": "every model with numeric ratings", "why_tests_cant": "Quantifies over all candidate tables and rating patterns.", "anchors": ["abiflib/scorestar.py:score_report"]}
{"id": "C64", "title": "STAR report", "statement": "STAR_report lists every candidate by score, names the two highest-scored as finalists with the number of voters preferring each, the number preferring neither, and the finalist preferred by more voters (both after 'tie' when equal).", "quantifier": "every model with ratings and ranks and at least two candidates", "why_tests_cant": "All elections, including ties.", "anchors": ["abiflib/scorestar.py:STAR_report"]}
{"id": "C65", "title": "Copeland report", "statement": "Copeland_report names exactly the candidates with the highest Copeland score and that score.", "quantifier": "every ranked model with candidates", "why_tests_cant": "Ties for first place are rare in samples.", "anchors": ["abiflib/pairwise.py:Copeland_report"]}
{"id": "C66", "title": "Candidate list", "statement": "The candidate list section has one line 'token: name' for every candidate of the table, in token order.", "quantifier": "every model", "why_tests_cant": "All candidate tables.", "anchors": ["abiflib/util.py:candlist_text_from_abif"]}
{"id": "C67", "title": "STAR section shown exactly when the model has ratings", "statement": "The text output with -m STAR shows the STAR report iff some ballot entry has a rating, and otherwise the hint to use --add-scores.", "quantifier": "every model", "why_tests_cant": "All rating patterns, including partly rated ballots.", "anchors": ["abiftool.py:main", "abiflib/scorestar.py:abifmodel_has_ratings"]}
{"id": "C68", "title": "Every named input file is used or the run refused", "statement": "A run of the tool depends on the text of every input file named on the command line, a missing file ends the run with a message, and nothing but the named files (and not standard input) is read.", "quantifier": "every argument list and file system", "why_tests_cant": "All argument lists.", "anchors": ["abiftool.py:main"]}
{"id": "C69", "title": "Modifiers form a set", "statement": "The output depends only on which -m modifiers are given, not on order or repetition; without -m it is that of candlist, winlosstie and Copeland.", "quantifier": "every argument list", "why_tests_cant": "All orders and repetitions.", "anchors": ["abiftool.py:main"]}
{"id": "C70", "title": "Text sections are independent", "statement": "The text output for a set of modifiers is the concatenation, in the documented order, of the outputs for each given modifier alone; the first failing section ends the run.", "quantifier": "every set of modifiers and model", "why_tests_cant": "All subsets of modifiers and all models.", "anchors": ["abiftool.py:main"]}
{"id": "C71", "title": "convert_text_to_abif dispatch", "statement": "convert_text_to_abif converts with the reader of the given format, refuses formats without a reader, and keeps the metadata passed in.", "quantifier": "every format, text and metadata", "why_tests_cant": "All formats and metadata.", "anchors": ["abiflib/util.py:convert_text_to_abif"]}
{"id": "C72", "title": "jabmod JSON written by the tool reads back as the same model", "statement": "json.loads accepts exactly the JSON texts (RFC 8259, floats excepted) and reads them as the value they denote, with blanks anywhere, string characters plain or in any escape, and a repeated key taking its last value; json.dumps output (plain or indent=4) is read back as the same value. Consequently `-t jabmod` output re-read with `-f jabmod`, from standard input or a file, behaves exactly like the original input: for every output format and the same options, the second run prints what the direct run prints.", "quantifier": "all JSON values without floats and with distinct keys, all their texts; all models the tool can read from any input format; all command lines, all output formats", "why_tests_cant": "Candidate names, comments and metadata are arbitrary Unicode strings, values nest arbitrarily deep and texts may carry blanks anywhere; the equality of two command-line runs ranges over all inputs and output formats.", "anchors": ["abiftool.py:main", "abiflib/core.py:convert_abif_to_jabmod", "abiflib/core.py:_process_abif_prefline", "abiflib/util.py:convert_text_to_abif"]}
{"id": "C73", "title": "converted files hold the conversion of their own inputs", "statement": "After a successful run of process_extfilelist every abif file it makes holds the conversion of its own downloaded files (each archive member: the conversion of that member), in the order of localcopies and with the entry's description; no other file changes and nothing is requested from the network. A missing input ends the run with exit status 1 and changes nothing; an input that cannot be converted changes nothing; a write that is cut short leaves a beginning of the text. Converting again gives the same files. Processing a whole fetchspec converts what the downloads of that run left, and does nothing after a failed download.", "quantifier": "every file system, fetchspec, list of entries, archive content and every failure of the operating system", "why_tests_cant": "All orders and numbers of entries, all file contents and all points where the operating system fails.", "anchors": ["fetchmgr.py:convert_files_to_abif", "fetchmgr.py:convert_nameq_tarball_to_abif_files", "fetchmgr.py:process_extfilelist", "fetchmgr.py:process_fetchspec"]}
{"id": "C74", "title": "the link for an abif source leads to the downloaded file", "statement": "For an entry whose source is abif already, the symbolic link made at abifloc leads to the downloaded file.", "quantifier": "all download directories, abif directories and abiflocs", "why_tests_cant": "All relative positions of two directories.", "anchors": ["fetchmgr.py:process_extfilelist"]}
{"id": "C75", "title": "the IRV winner and head-to-head comparisons", "statement": "When no ballot ranks candidates equal, a sole IRV winner beats every other candidate of the last round head to head (as counted by the pairwise tally), and a candidate that loses every head-to-head comparison is never the sole IRV winner of an election with two or more candidates.", "quantifier": "every election with strict (possibly truncated) ballots, every set order and every random choice", "why_tests_cant": "Relates two independent tallies for all profiles and all tie-breaking choices.", "anchors": ["abiflib/irvtally.py:IRV_dict_from_jabmod", "abiflib/irvtally.py:_irv_count_internal", "abiflib/pairwise.py:pairwise_count_dict"]}
{"id": "C76", "title": "a solid majority coalition wins the IRV count", "statement": "When no ballot ranks candidates equal and more than half of the voters rank every candidate of a group above every other candidate, one of the IRV winners belongs to the group, and the sole winner does when there is one, whatever is eliminated in batches or by random choice.", "quantifier": "every election with strict ballots, every group, every set order and random choice", "why_tests_cant": "All profiles, groups and tie-breaking choices.", "anchors": ["abiflib/irvtally.py:IRV_dict_from_jabmod", "abiflib/irvtally.py:_irv_count_internal"]}
{"id": "C77", "title": "ranked lists name a ballot's candidates best first", "statement": "ranklist_from_jabmod_voteline returns every candidate of the voteline exactly once, never puts a candidate before one ranked better (or, on ballots without ranks, rated higher), and keeps tied candidates in ballot order.", "quantifier": "every voteline, in particular every voteline of every parsed text", "why_tests_cant": "All combinations of ranks, ratings and dictionary orders.", "anchors": ["abiflib/core.py:ranklist_from_jabmod_voteline"]}
{"id": "C78", "title": "Metadata lines give the stored values", "statement": "For every key (other than the ones the reader maintains itself), the metadata value in a parsed model is the text of the last line {key: value} naming it, quotes left out, and keys that no line names have no value.", "quantifier": "every text, every flag combination, every key, value and arrangement of blanks and quotes", "why_tests_cant": "The lines are recognized by a backtracking regular expression; which shapes it accepts and where it cuts is a statement about all lines.", "anchors": ["abiflib/core.py:_process_abif_metadata", "abiflib/core.py:convert_abif_to_jabmod", "abiflib/abifregex.py:METADATA_REGEX"]}
{"id": "C79", "title": "What an export/import round trip keeps of the metadata", "statement": "Re-reading an exported model gives for every metadata key: the same string if the value is a nonempty string of printable ASCII characters accepted in metadata values; the JSON text as a string for numbers, booleans and null; nothing for every other value.", "quantifier": "every exportable model and every accepted text, every key and value", "why_tests_cant": "Composition of the JSON printer and the metadata regular expression over all values.", "anchors": ["abiflib/core.py:convert_jabmod_to_abif", "abiflib/core.py:convert_abif_to_jabmod", "abiflib/abifregex.py:METADATA_REGEX"]}
{"id": "C80", "title": "The command line is the library calls of its two formats", "statement": "A run of abiftool.py with one input, -f FROM and -t TO prints exactly what the library call of TO gives for the model that the library call of FROM makes of the input text (with votelines consolidated if asked), and a newline; an exception of either is the end of the run and nothing is printed. The modifiers used are the given ones or candlist, Copeland, winlosstie.", "quantifier": "every input text, file or standard input, input format, output format, modifier list, width and flag", "why_tests_cant": "The table of formats times modifiers times texts is infinite; a crossed branch shows only for particular combinations.", "anchors": ["abiftool.py:main"]}
{"id": "C81", "title": "Paths are joined and split as the operating system reads them", "statement": "Joining a directory and a relative path names the place reached by following the parts of the first and then those of the second, an absolute second path stands for itself, and the directory of a path is the path without its last part; so a downloaded file is stored in the directory that is created for it.", "quantifier": "every pair of path strings", "why_tests_cant": "Paths are arbitrary strings with any number and position of slashes.", "anchors": ["fetchmgr.py:fetch_url_to_subdir", "fetchmgr.py:fetch_web_items", "fetchmgr.py:process_extfilelist"]}
{"id": "C82", "title": "Converted files read back as the election they were converted from", "statement": "The .abif text made from a PrefLib file or a Debian tally sheet reads back as one voteline per vote of the source, with its quantity, exactly its options and the source's order of tiers, and every option has its name.", "quantifier": "every well-formed PrefLib document and Debian sheet", "why_tests_cant": "It composes importer, intermediate text, exporter and reader over all documents.", "anchors": ["abiflib/util.py:convert_text_to_abif", "abiflib/preflib.py:convert_preflib_str_to_abif", "abiflib/debtally.py:convert_debtally_to_abif", "abiflib/core.py:convert_jabmod_to_abif"]}
{"id": "C83", "title": "Counting texts together: concatenated texts give the sum of the counts", "statement": "When two accepted ABIF texts, the first ending in a newline, are read as one text, every voteline of either is counted once with its quantity: the total number of ballots, every cell of the pairwise matrix between two candidates, and hence who beats whom, are those of the two texts taken together.", "quantifier": "every pair of accepted ABIF texts", "why_tests_cant": "It ranges over all pairs of texts of any length and content.", "anchors": ["abiflib/core.py:convert_abif_to_jabmod", "abiflib/pairwise.py:pairwise_count_dict"]}
{"id": "C84", "title": "Results depend on what the ballots say, not on how they are written", "statement": "The pairwise matrix and win-loss-tie table depend only on how many voters hold each opinion on the candidates: rank numbers, gaps, ratings, the sequence of entries, order and grouping of the votelines, lines of quantity zero, and listing the remaining candidates tied last do not matter. The instant-runoff count depends only on each line's quantity and the order of the candidates it lists and, for ballots without equal rankings, only on how many voters cast each ballot; so consolidating does not change it.", "quantifier": "every pair of models holding the same opinions or ballots", "why_tests_cant": "It relates all the ways of writing an election down.", "anchors": ["abiflib/pairwise.py:pairwise_count_dict", "abiflib/irvtally.py:IRV_dict_from_jabmod", "abiflib/core.py:consolidate_jabmod_voteline_objects"]}
{"id": "C85", "title": "Counts treat candidates alike whatever their tokens", "statement": "Renaming the candidates' tokens renames the win-loss-tie table, the Copeland winners, scores, ranks, STAR finalists and the whole instant-runoff count (rounds, numbers, eliminations, winners), and changes nothing else, given the corresponding choices where chance decides.", "quantifier": "every model, every renaming, every schedule", "why_tests_cant": "It ranges over all renamings and elections.", "anchors": ["abiflib/pairwise.py:full_copecount_from_abifmodel", "abiflib/pairwise.py:get_Copeland_winners", "abiflib/scorestar.py:STAR_result_from_abifmodel", "abiflib/irvtally.py:IRV_dict_from_jabmod"]}
{"id": "C86", "title": "Copeland winners meet the usual criteria", "statement": "The Copeland winners are the candidates beaten by the fewest others; if every member of a group beats everybody outside it the winners belong to the group; a candidate beaten by all others is never a winner (nor the STAR winner); a candidate to which all voters prefer another is never a winner; moving a winner up on ballots keeps it a winner and creates no new one.", "quantifier": "every model with distinct candidates and ranked entries", "why_tests_cant": "The criteria quantify over all elections and changes of ballots.", "anchors": ["abiflib/pairwise.py:get_Copeland_winners", "abiflib/pairwise.py:calc_Copeland_scores", "abiflib/scorestar.py:STAR_result_from_abifmodel"]}
{"id": "C87", "title": "San Francisco program prints every ballot with all its candidates", "statement": "For well-formed lookup and image files, python -m abiflib.sftxt prints one record per ballot of the chosen contest, in file order; the json record shows all lines of the ballot, the urlencoded line read as nameq gives each named candidate its best rank, and the csv96 line lists the numbers of the ballot's candidates in order as listed in the candidate table.", "quantifier": "all pairs of well-formed files (any number of contests, voters, lines per voter), all output options", "why_tests_cant": "ballots are runs of lines of any length interleaved with other contests; tests have only ballots of exactly three lines", "anchors": ["abiflib/sftxt.py:_sftxt_dump_url_encoded", "abiflib/sftxt.py:_sftxt_dump_csv1996fmt", "abiflib/sftxt.py:main", "abiflib/sftxt.py:_sftxt_convert_to_ballots"]}
{"id": "C88", "title": "San Francisco program honours --contestid and -o", "statement": "The output shows the contest asked for with --contestid and only its lines matter; with -o the output goes to that file and nothing is printed; an unknown output format is refused.", "quantifier": "all pairs of well-formed files and all options; the -o part for arbitrary files", "why_tests_cant": "two runs are compared (with and without the option, with and without the other contests' lines) on arbitrary files", "anchors": ["abiflib/sftxt.py:main", "abiflib/sftxt.py:_sftxt_lookuplines2candpool"]}
{"id": "C89", "title": "Checking out a repository runs one git command and restores the working directory", "statement": "For a repository URL and subdirectory the fetch manager runs git pull inside the subdirectory if it exists and git clone otherwise, exactly one command, comes back to the working directory it started in, and tells the user when git failed.", "quantifier": "all URLs, subdirectories, file systems and behaviours of git (any exit status, any change of the files)", "why_tests_cant": "git is an external process with arbitrary effects; no test runs it", "anchors": ["fetchmgr.py:update_repository", "fetchmgr.py:checkout_repository", "fetchmgr.py:process_fetchspec"]}
{"id": "C90", "title": "JSON outputs are JSON and show the results", "statement": "abiftool -t irvjson, paircountjson, winlosstiejson, jabmod, and -t json with the IRV, pairwise or STAR modifier print one JSON document for every input; reading it back gives the pairwise supports, the wins, losses and ties, the scores, finalists and STAR winner, and the complete IRV result. -t json prints JSON.", "quantifier": "all inputs and options, all candidate names and tokens (any characters), all orders in which sets are listed, all tie-breaking choices", "why_tests_cant": "the documents contain user-chosen texts as keys and values and depend on set order; tests compare a few fields of fixed elections", "anchors": ["abiftool.py:main", "abiflib/core.py:clean_dict", "abiflib/irvtally.py:IRV_dict_from_jabmod", "abiflib/scorestar.py:STAR_result_from_abifmodel", "abiflib/pairwise.py:pairwise_count_dict", "abiflib/pairwise.py:winlosstie_dict_from_pairdict"]}
{"id": "C91", "title": "configtool lists the elections of an archive", "statement": "For the fetchspec of an archive, configtool's list has exactly one entry per archive file, in the file's order, with its filename, an id that is the last path component without '.abif' (None if the name does not end so), its title (the id when there is none), its tags as given joined with ', ', and its description; for any other fetchspec only the srcfmt comes out. _fix_tag maps tags with a known beginning to their table entries, adds 'mayor' when the tag mentions it in any case, and passes any other tag through.", "quantifier": "every file content, every JSON value in every place, every path, every tag and title", "why_tests_cant": "Regex search with greedy groups and '$' before a final newline, Python truthiness and iteration over strings and dicts give endlessly many input shapes.", "anchors": ["util/configtool.py: _fix_tag, make_nameq_based_file_list, convert_fetchspec_to_newdict"]}
{"id": "C92", "title": "Diagrams: what is printed, and copedot", "statement": "copedot and -t svg/dot hand graphviz the graph whose nodes are the candidates and whose edges run from the preferred candidate of every pair (both ways for ties), in the format asked for, and print its output from the first '<svg' on (all of it when there is none); copedot --outfmt json prints the counts as JSON; a missing file is reported.", "quantifier": "every abif text, every format, every behaviour of graphviz", "why_tests_cant": "Graphviz's output and the election are arbitrary; the claim is about every pair of candidates.", "anchors": ["util/copedot.py: main", "abiflib/vizelect.py: copecount_diagram"]}
{"id": "C93", "title": "Import of any nameq text", "statement": "convert_nameq_to_jabmod succeeds exactly if in every line the first value of every name is an integer; then every line (also an empty one) is one ballot whose names, in order of first appearance, have their first value as rank; pieces without '=' or with an empty value are skipped; the candidates are all names in order of first appearance; ballotcount is the number of lines. Every way of writing a name in a query string ('+' for a blank, percent-escaped UTF-8 with digits of either case, characters as they are) is read as that name, and bytes that are not UTF-8 always show as U+FFFD.", "quantifier": "every text, every spelling of every name, every byte sequence", "why_tests_cant": "All query strings, all escapes, all byte sequences: unbounded, with greedy decoding rules at every position.", "anchors": ["abiflib/nameq.py: convert_nameq_to_jabmod"]}
{"id": "C94", "title": "Converting an election keeps its results", "statement": "Exporting an election whose ballots and names .abif can carry to .abif text and reading the text back gives the same result for every candidate: each head-to-head count, each win-loss-tie record, the Copeland winners, each score and number of raters; and if all tokens are url-safe, the matrix, win-loss-tie table, score, STAR and scaled-score results and (without equal rankings) the IRV count for every random choice are the same in every respect. Through nameq the head-to-head results are kept when every candidate stands on a ballot; scores, and candidates on no ballot, are not kept.", "quantifier": "every exportable model and every exported text; every model with ranked ballots for nameq; every random choice of the IRV count", "why_tests_cant": "A test compares the results of a few converted files; the claim is about every election, composed of writer, reader and every counting method.", "anchors": ["abiflib/core.py: convert_jabmod_to_abif, convert_abif_to_jabmod", "abiflib/nameq.py: convert_jabmod_to_nameq, convert_nameq_to_jabmod", "abiflib/pairwise.py", "abiflib/scorestar.py", "abiflib/irvtally.py"]}
{"id": "C95", "title": "Converting .abif to .abif settles after two conversions", "statement": "Converting an accepted .abif text to .abif, and the result to .abif again, gives a text that every further conversion leaves exactly as it is, character for character, whatever the whitespace options: provided the tokens on the ballots can be written in .abif and no metadata key starts with a blank. One conversion is not enough, and without the condition on tokens the converted text may be rejected.", "quantifier": "every accepted text meeting the two conditions, every choice of the whitespace option at each of the three conversions", "why_tests_cant": "Needs the exact text written for every election, and a second reading of it; the number of texts, tokens, ratings and metadata lines is unbounded.", "anchors": ["abiflib/util.py:convert_text_to_abif", "abiflib/core.py:convert_jabmod_to_abif", "abiflib/core.py:convert_abif_to_jabmod"]}
{"id": "C96", "title": "The stand-alone programs of the modules agree with abiftool", "statement": "Run on the same readable file: irvtally FILE prints what `abiftool -f abif -t text -m candlist -m IRV FILE` prints, irvtally -j what `-t irvjson` prints; pairwise FILE prints the file's name and text and then what `abiftool -t text -m pairwise` prints; scorestar FILE prints, under fixed headings, the file, the jabmod with ratings added, and the score and STAR results that abiftool prints for the same election; feeding the output of debtally FILE or preflib FILE to abiftool gives the same run as abiftool reading FILE in that format; html_output_pairwise makes the page of abiftool -t html with the metadata title or the file name as title; core -f pref_to_dict prints as JSON exactly what reading a one-ballot election stores. Each fails with the same exception when the abiftool run fails.", "quantifier": "all file contents, file names, output formats, modifiers (other than jcomments/consolidate where stated), drawing libraries and IRV tie-break schedules", "why_tests_cant": "Equality of two programs' outputs over all texts, including those both reject; tests compare a few files.", "anchors": ["abiflib/irvtally.py:main", "abiflib/pairwise.py:main", "abiflib/scorestar.py:main", "abiflib/debtally.py:main", "abiflib/preflib.py:main", "abiflib/html_output_pairwise.py:main", "abiflib/html_output_scorestar.py:main", "abiflib/core.py:main", "abiftool.py:main"]}
{"id": "C97", "title": "Score and STAR winners meet the usual criteria", "statement": "The announced score winner is the candidate with the largest score, the first in the candidate table if several have it. It stays the winner when voters rate it higher or others lower (monotonicity), when further voters who rate nobody above it vote (participation), when losing candidates withdraw, and it wins two texts together if it wins each (consistency). A candidate is announced as STAR winner exactly when it is one of the two with the largest scores and is preferred to the other by more voters than the other way round; it stays the winner when voters rate and rank it higher, and when candidates that are not finalists withdraw; a Condorcet winner among the finalists wins. Neither guarantees that a majority favourite wins, and STAR does not satisfy participation.", "quantifier": "all elections that can be counted (all parsed texts among them), all candidates, all changes of ballots of the stated kind", "why_tests_cant": "Relations between two elections over all ballots; a test compares single pairs.", "anchors": ["abiflib/scorestar.py:enhanced_score_result_from_abifmodel", "abiflib/scorestar.py:STAR_result_from_abifmodel", "abiflib/scorestar.py:basic_score_result_from_abifmodel"]}
{"id": "C98", "title": "Instant runoff: later preferences and more support; what it does not guarantee", "statement": "If two elections have the same candidate table and, line by line, the same quantities and the same ballots down to the place of a candidate c, which c shares with nobody, then c wins the instant-runoff count of both or of neither, and if it wins, the two results are equal in every round: what a voter says below c neither helps nor harms c (later-no-harm and later-no-help). This fails if c shares its place. If c alone wins a count of ballots without equal ranks in which nothing was decided by chance, then c alone still wins, whatever happens by chance, when any further ballots with c alone on top are added, wherever they stand; a candidate that only shares an all-way tie can lose that way. A winner can lose by being ranked higher by some voters (no monotonicity), and voters can make a candidate lose to a worse one by joining (no participation).", "quantifier": "all elections that can be counted (all parsed texts among them), all schedules of random eliminations, all candidates c and all changes below c", "why_tests_cant": "Relates two counts over all ballots and round histories; a test compares single pairs.", "anchors": ["abiflib/irvtally.py:_irv_count_internal", "abiflib/irvtally.py:_get_valid_topcand_qty", "abiflib/irvtally.py:_discard_toprank_overvotes", "abiflib/irvtally.py:IRV_dict_from_jabmod"]}
{"id": "C99", "title": "Which outputs an election has", "statement": "For every ABIF text, preflib file, Debian tally sheet or nameq file (ranks below sys.maxsize) that abiftool can read, every output format and every list of modifiers: the run ends without an exception, or with exactly one exception that is decided by simple facts about the election: csvrank fails (bad voteline) exactly if some ballot line has quantity 0; dot, svg, irvjson, IRV results and html_snippet with svg fail (ValueError) exactly without candidates; the score and Copeland reports fail (IndexError) exactly without candidates; STAR as JSON fails (IndexError) exactly with fewer than two candidates; the STAR section of the text output fails (IndexError) exactly if the first ballot line names nobody, or its first candidate is rated and there are fewer than two candidates; every other format always succeeds. With two candidates, no zero quantities and a named candidate on the first line nothing fails. A failing run prints nothing.", "quantifier": "all texts in the four input formats, formats, modifier lists, options, elimination schedules and libraries that answer", "why_tests_cant": "Whether an output exists is a statement about all elections for all formats; tests try ordinary elections only.", "anchors": ["abiftool.py: main", "abiflib/core.py: convert_jabmod_to_abif, get_ranking_output_csv", "abiflib/scorestar.py: abifmodel_has_ratings, STAR_report, score_report", "abiflib/pairwise.py: Copeland_report", "abiflib/irvtally.py: IRV_dict_from_jabmod", "abiflib/vizelect.py: copecount_diagram", "abiflib/nameq.py: convert_nameq_to_jabmod"]}
{"id": "C100", "title": "Fetchspec files mean what their JSON says", "statement": "A fetchspec file is processed as the fetchspec its JSON document describes: any layout, any order of members and any further members make no difference; a `null` srcfmt, abifloc_subdir or archive_subfiles is the same as none. A file that describes no fetchspec (missing, not JSON, no object, neither gitrepo_url nor web_urls, no download_subdir) ends the run with an exception before anything is requested, written or changed.", "quantifier": "all file texts, documents, file systems, servers and worlds", "why_tests_cant": "Ranges over all JSON texts and all states of the file system.", "anchors": ["fetchmgr.py: process_fetchspec", "fetchmgr.py: process_extfilelist"]}
{"id": "C101", "title": "San Francisco imports can be output", "statement": "Every pair of San Francisco files that abiftool can import can be output in every format: `abiftool -f sftxt` ends without an exception for each output format and modifier, or fails only as it does for ABIF text with the same election (C99).", "quantifier": "over all well-formed master lookup and ballot image files, all output formats and modifiers", "why_tests_cant": "The files and the combinations of format and modifiers are unbounded, and whether an output exists depends on a candidate that no file mentions.", "anchors": ["abiflib/sftxt.py:convert_sftxt_to_jabmod", "abiflib/sftxt.py:_sftxt_lookuplines2candpool", "abiftool.py:main", "abiflib/html_output_pairwise.py:htmltable_pairwise_and_winlosstie", "abiflib/irvtally.py:IRV_dict_from_jabmod"]}
{"id": "C102", "title": "The words on the command line", "statement": "abiftool understands exactly the command lines that give its files in one place, with options before and after them, each written by its name, by the beginning of its name, or by its letter, and with a value the help text lists (a whole number for the width). Such a command line means what its options say: the last -f, -t and -w count, the -m add up in order, and a flag is on if it is given. Every other command line ends the program with a usage message before any file is read, or with the help text, which is shown only to those who ask for it and always to those who ask for it after options that are all right. The help text lists exactly the values that are accepted.", "quantifier": "all command lines (lists of words)", "why_tests_cant": "there are infinitely many command lines: abbreviations, attached values, letters put together, negative numbers and words with spaces as file names, in every order and number", "anchors": ["abiftool.py: main, gen_epilog, help_text, INPUT_FORMATS, OUTPUT_FORMATS, MODIFIERS"]}
{"id": "C103", "title": "From the paper to the printed result", "statement": "Take an election as it is on paper: ballots with a count, each ranking candidates in tiers or giving them points, and names for candidates. Write it down in .abif in any order, with comments and notes between, and run abiftool on the file (or on the standard input). Then -t paircountjson prints, for every two candidates, how many ballots put the one above the other; -t winlosstiejson how many others each candidate beats and loses to (and twice the number it ties with); -t json -m STAR everybody's points, two candidates with the most points as finalists, and as the winner the finalist whom more ballots put above the other; and, when no ballot has two candidates on a par, -t irvjson prints an instant-runoff count of these ballots round by round, with its winners. The text reports say the same: -t text with -m candlist, score, STAR, Copeland or IRV prints the candidates with their names, everybody's points and the number of ballots giving them, the STAR finalists and winner, the Copeland leader (a candidate who beats every other on paper is the one printed), and the rounds and winners of the instant-runoff count (a candidate first on more than half of the ballots wins in one round).", "quantifier": "all elections on paper (ballots, candidates, names, comments, notes, spacing and quoting), all files and machines, all orders in which sets are listed and random choices fall", "why_tests_cant": "the statement connects what voters wrote with what the program prints, for every possible election; a test compares a handful of them", "anchors": ["abiftool.py: main", "abiflib/core.py: convert_abif_to_jabmod", "abiflib/pairwise.py: pairwise_count_dict, winlosstie_dict_from_pairdict", "abiflib/scorestar.py: STAR_result_from_abifmodel", "abiflib/irvtally.py: IRV_dict_from_jabmod"]}
{"id": "C104", "title": "Floating-point arithmetic does not change who wins", "statement": "The majority test of the instant-runoff count and the Copeland scores are computed with floating-point numbers. As long as there are at most 2^53 ballots, the instant-runoff count is nevertheless the one exact arithmetic gives, in every round; beyond, a round is decided wrongly at most when the leader is within one part in 2^53 of half the votes. With at most 2^50 candidates every Copeland score is exact.", "quantifier": "all models with non-negative quantities and at most 2^53 ballots (in particular all parsed texts with such a ballot count), all orders of sets and random choices; for the margin, all vote totals", "why_tests_cant": "rounding errors show only for particular numbers; the statement is about all of them", "anchors": ["abiflib/irvtally.py: _irv_count_internal, IRV_dict_from_jabmod", "abiflib/pairwise.py: calc_Copeland_scores"]}
{"id": "C105", "title": "Counting a model leaves it as it was", "statement": "An instant-runoff, pairwise or score count changes nothing in the model it is given, whatever parts of the model (or of several models) are shared between references, and also if it ends with an exception; adding ratings makes a new model and leaves the old one alone. A program that holds several models and makes any number of such calls in any order gets from each call the answer it would get from a fresh copy. Only consolidation changes the model it is given (and no other).", "quantifier": "all memories with any sharing of objects, all models in them, all sequences of calls on any of them, all set orders and random choices", "why_tests_cant": "what a call does to shared objects depends on every history of calls and every pattern of sharing", "anchors": ["abiflib/irvtally.py: _eliminate_cands_from_votelines, _discard_toprank_overvotes, _get_valid_topcand_qty, _irv_count_internal, IRV_dict_from_jabmod", "abiflib/pairwise.py: pairwise_count_dict", "abiflib/scorestar.py: basic_score_result_from_abifmodel", "abiflib/core.py: _add_ratings_to_jabmod_votelines, consolidate_jabmod_voteline_objects"]}
{"id": "C106", "title": "Instant-runoff counts of any length finish", "statement": "An instant-runoff count has a result however many rounds it takes, on an interpreter with a limited stack: the limit on nested calls does not depend on the election, so no election may need more nested calls than some fixed number.", "quantifier": "all elections, all limits on nested calls, all set orders and random choices", "why_tests_cant": "the number of rounds is unbounded, and a test with a thousand rounds is not written", "anchors": ["abiflib/irvtally.py: _irv_count_internal, IRV_dict_from_jabmod"]}
{"id": "C107", "title": "Sloppily written preference lists", "statement": "A preference list without brackets and double quotes can be read unless its first entry that is not blank is a rating without a candidate. The candidates are those named, each with the rating written with it, a candidate named twice counts where it was named last, and blank entries (doubled, leading or trailing delimiters) do not change who is ranked above whom.", "quantifier": "all preference lists without brackets and double quotes: any candidates, ratings, blanks, empty entries, repeated names, any mixture of the three delimiters; whole texts of such votelines", "why_tests_cant": "the number of ways to write a list sloppily is unbounded, and tests try the tidy ones", "anchors": ["abiflib/core.py: _extract_candprefs_from_prefstr, _parse_prefstr_to_dict, _determine_rank_or_rate"]}
{"id": "C108", "title": "Instant runoff and parties with several candidates", "statement": "In elections without ties on the ballots, when the candidates of each party stand together on every ballot and a clear-cut count (whoever is eliminated together had together fewer votes than each of those who stay) ends with one winner, the count with one candidate per party ends with that winner's party as the one winner; and when the count with one candidate per party is clear cut and ends with one winner, one of the reported winners of the count with all candidates is of that party. In particular a clear-cut count with one winner does not depend on how ties are resolved.", "quantifier": "all elections without ties on the ballots: any parties of any sizes, any ballots (complete or truncated) on which the candidates of a party stand together, any way to resolve ties in either count", "why_tests_cant": "the sequence of eliminations is entirely different in the two counts; a test compares a few pairs of elections", "anchors": ["abiflib/irvtally.py: IRV_dict_from_jabmod, _irv_count_internal, _get_valid_topcand_qty"]}
{"id": "C109", "title": "Numbers with many digits", "statement": "Python refuses to convert strings of more than 4300 digits to integers. With such a limit, reading an ABIF text gives what it would give without the limit, or a ValueError; a text without a run of more digits than the limit is read exactly as without it; a text with a voteline whose quantity has more digits than the limit is refused with a ValueError: no election is read with a truncated quantity. In a preference list only the ratings count: digits in candidates' tokens do not, and a rating beyond the limit is refused with a ValueError.", "quantifier": "all ABIF texts, all limits, all settings of the reader", "why_tests_cant": "a test uses small quantities; no test can range over all texts with and without runs of thousands of digits in names, comments, quantities and ratings", "anchors": ["abiflib/core.py: convert_abif_to_jabmod, _process_abif_prefline, _parse_prefstr_to_dict, _extract_candprefs_from_prefstr, _add_ranks_to_prefjab_by_rating"]}
{"id": "C110", "title": "The words on the command lines of the stand-alone programs", "statement": "The stand-alone programs of the modules (pairwise, scorestar, irvtally, debtally, preflib, the two HTML pages, sftxt, configtool, copedot, core, fetchmgr) understand their command line exactly if, besides options written in one of the ways argparse allows, it has the number of words the program wants; the words become the files in order, the last value of an option counts, and anything else is refused with a usage message or answered with the help text.", "quantifier": "all command lines (lists of words) of each program, all spellings of options (abbreviated, with =, attached, as next word, grouped letters)", "why_tests_cant": "unbounded command lines; a test tries a few", "anchors": ["abiflib/irvtally.py: main", "abiflib/sftxt.py: main", "abiflib/pairwise.py: main", "abiflib/scorestar.py: main", "abiflib/debtally.py: main", "abiflib/preflib.py: main", "abiflib/html_output_pairwise.py: main", "abiflib/html_output_scorestar.py: main", "abiflib/core.py: main", "util/copedot.py: main", "util/configtool.py: main", "fetchmgr.py: main"]}
{"id": "C111", "title": "Hand-written jabmod documents", "statement": "abiftool -f jabmod reads a JSON text as an election exactly if the text is JSON for an object with metadata, candidates and votelines of the expected types, and the election read is the one described, member by member: the order of members of a line or of the document, members abiftool does not know, blanks and escapes make no difference to what is read, and so none to any output other than jabmod.", "quantifier": "all texts, all JSON documents, all elections, all output formats and modifiers", "why_tests_cant": "unbounded documents, every order and layout of members", "anchors": ["abiftool.py: main (json.loads, line 177)", "abiflib/core.py: convert_abif_to_jabmod (the shape of the document)"]}
{"id": "C112", "title": "A bracket that is not closed is noticed", "statement": "A voteline with an opening square bracket that is never closed is refused.", "quantifier": "all preference lists with an unclosed bracket after a part without brackets and double quotes; all ABIF texts", "why_tests_cant": "a malformed line has arbitrary text before and after the bracket", "anchors": ["abiflib/core.py: _extract_candprefs_from_prefstr, _determine_rank_or_rate, _parse_prefstr_to_dict"]}
{"id": "C113", "title": "Blanks in preference lists", "statement": "Blanks next to the characters [ ] > = , and at the ends of a preference list change nothing in what is read: texts whose votelines differ only in such blanks give the same candidates, quantities, ranks and ratings, or the same error. Blanks right before the slash of a rating become part of the candidate.", "quantifier": "all preference lists whatever they contain (brackets, quotes, errors included), all places for the blanks, all ABIF texts, with and without added ratings and stored comments", "why_tests_cant": "a test shows one spacing of one list", "anchors": ["abiflib/core.py: _extract_candprefs_from_prefstr, _determine_rank_or_rate, _parse_prefstr_to_dict, convert_abif_to_jabmod"]}
{"id": "C114", "title": "Numbers written as text", "statement": "Where a number may be written as text (a rating in a JSON model, a rank in a .nameq file, the width on the command line), exactly the texts made of digits with single underscores between them, with or without a sign and with blanks at the ends or none, are accepted, with the value they stand for; any other text is refused: scores, ABIF export and .nameq import end with a ValueError, the command line with the usage message. Scores are refused exactly if some entry of some ballot cannot be counted, with the exception of the first such entry.", "quantifier": "all texts in place of a number, in all scripts with decimal digits; all models for scores; all ballots for the export; all .nameq texts; all values of -w", "why_tests_cant": "a test tries a few texts; the property is about every text, and about which of several faulty entries decides", "anchors": ["abiflib/scorestar.py: basic_score_result_from_abifmodel", "abiflib/core.py: _get_votelinestr_from_jabvoteline", "abiflib/nameq.py: convert_nameq_to_jabmod", "abiftool.py: main"]}
{"id": "C115", "title": "Line endings and stray first characters", "statement": "Texts that consist of the same lines give the same result whichever way the ends of the lines are written (line feed, carriage return and line feed, carriage return, also mixed, with or without an end after the last line), for every format that is not JSON and for the whole command line; every text without rare line breaks consists of exactly one list of lines. A line of an .abif text that begins with a character other than a digit, `=`, `{`, `#` or a blank counts for its comment only, so a byte order mark at the beginning of a file loses the first line.", "quantifier": "all texts and ways to end their lines; all settings of the parser; all arguments of the command line and contents of standard input and files; all characters and places of a stray first character", "why_tests_cant": "tests use files with one kind of line ending; the property quantifies over all mixtures and all texts", "anchors": ["abiflib/core.py: convert_abif_to_jabmod", "abiflib/nameq.py: convert_nameq_to_jabmod", "abiflib/preflib.py: convert_preflib_str_to_abif", "abiflib/debtally.py: convert_debtally_to_abif", "abiflib/sftxt.py: convert_sftxt_to_jabmod", "abiftool.py: main"]}
{"id": "C116", "title": "Ballots upside down", "statement": "If every voter turns the ballot upside down, the pairwise matrix is transposed, wins and losses of every candidate change places while ties stay, and the Copeland winners are exactly the candidates that beat the fewest others; when no two candidates tie, a sole winner does not win with the ballots upside down. If every voter gives k - r points where it was r, every score becomes k times the number of voters minus the old one. Instant runoff has no such symmetry: a sole winner may win both ways, and so may a sole Copeland winner that ties with others.", "quantifier": "all elections whose ballots rank every candidate, and all ways of writing the reversed ballots; all ratings and all k for scores", "why_tests_cant": "reversal is a relation between two runs over all elections, not the result of one", "anchors": ["abiflib/pairwise.py: pairwise_count_dict", "abiflib/pairwise.py: winlosstie_dict_from_pairdict", "abiflib/pairwise.py: full_copecount_from_abifmodel", "abiflib/irvtally.py: IRV_dict_from_jabmod", "abiflib/scorestar.py: basic_score_result_from_abifmodel"]}
{"id": "C117", "title": "Candidates who are on no ballot", "statement": "Announcing further candidates whom no ballot lists changes nothing for the others: the instant-runoff winner is the same (ballots without ties, some voter lists a candidate, and the count is clear cut), their pairwise counts are the same, the Copeland winners are the same, and their scores and voter counts are the same; if two candidates have a score above zero, the STAR winner is the same; a candidate on no ballot has zero in every pairwise count, score zero and no voters. A line that announces a candidate nobody mentions, at any line start of a text, gives such an election.", "quantifier": "all elections and all lists of further candidates; all resolutions of ties for instant runoff", "why_tests_cant": "it is a relation between the results of two runs, over all elections and all sets of additional candidates", "anchors": ["abiflib/pairwise.py: pairwise_count_dict", "abiflib/pairwise.py: full_copecount_from_abifmodel", "abiflib/irvtally.py: IRV_dict_from_jabmod", "abiflib/scorestar.py: basic_score_result_from_abifmodel", "abiflib/scorestar.py: STAR_result_from_abifmodel", "abiflib/core.py: convert_abif_to_jabmod"]}
{"id": "C118", "title": "When the methods agree", "statement": "On ballots without ties: a candidate whom more than half of the voters put above all others wins the instant runoff in its first round and is the only Copeland winner; if all candidates have equally many first choices, all of them win the instant runoff at once. With two candidates, instant runoff, Copeland and STAR elect the one more voters prefer, whatever the scores, and on equal numbers instant runoff and Copeland report both. With four candidates the four methods may elect four different ones.", "quantifier": "all elections without ties on a ballot, all resolutions of ties in the count", "why_tests_cant": "it relates the results of several counts over all elections", "anchors": ["abiflib/pairwise.py: full_copecount_from_abifmodel", "abiflib/irvtally.py: IRV_dict_from_jabmod", "abiflib/scorestar.py: STAR_result_from_abifmodel"]}
{"id": "C119", "title": "Blank ballots change nothing but the number of ballots", "statement": "A line with a quantity and nothing after the colon may be put into any text that is read, at any line start: the candidates, the other ballots and their order stay, and the number of ballots grows by the quantity. Pairwise counts, Copeland results and scores do not change; of the STAR result only the voters and the abstentions in the final grow. In instant runoff every vote count, elimination and the winner stay and in every round the ballots and the exhausted ones grow by the quantity, if no ballot has ties or the blank line is the last; a blank line between two lines with ties can change the winner.", "quantifier": "all texts, all places for the blank line, all elections with blank ballots added, all resolutions of ties in the count", "why_tests_cant": "it compares the results of two counts over all elections", "anchors": ["abiflib/core.py: convert_abif_to_jabmod", "abiflib/pairwise.py: pairwise_count_dict", "abiflib/irvtally.py: IRV_dict_from_jabmod", "abiflib/scorestar.py: STAR_result_from_abifmodel"]}
{"id": "C120", "title": "Elections that can be read can be written", "statement": "CPython neither reads nor writes an integer of more than 4300 digits. Every ABIF text that is read under such a limit can be written as jabmod and as .abif, with or without consolidating the votelines, exactly as without a limit, if the total number of ballots is within the limit; if it is not, both outputs end with a ValueError although every number in the text was accepted.", "quantifier": "all texts, all values of the digit limit, all options of the reader", "why_tests_cant": "it is about numbers of any length and the sums that the reader makes of them", "anchors": ["abiflib/core.py: convert_abif_to_jabmod", "abiflib/core.py: convert_jabmod_to_abif", "abiftool.py: main"]}
{"id": "C121", "title": "Ranked ballots with --add-scores are Borda counts", "statement": "For an election with ranked ballots and no points, written down in .abif in any way, abiftool --add-scores -t text -m score prints for every candidate its Borda count (number of candidates minus one for the first tier, one less for every tier below, nothing for candidates not on the ballot) and the number of ballots giving it a point, highest count first, and -t json -m STAR prints these counts and holds its runoff between two candidates heading that list. When no ballot has ties the Borda count of a candidate is the sum of its row of the pairwise matrix; if moreover every ballot names every candidate, the counts add up to ballots × n(n-1)/2, a candidate who beats every other is above the average, one who loses to every other below it, and the candidate named as score winner does not lose to every other.", "quantifier": "all elections on paper with ranked ballots, all spellings of them, all files and machines", "why_tests_cant": "it relates two computations over all elections", "anchors": ["abiflib/core.py: _add_ratings_to_jabmod_votelines", "abiflib/core.py: convert_abif_to_jabmod", "abiflib/scorestar.py: basic_score_result_from_abifmodel", "abiftool.py: main"]}
{"id": "C122", "title": "Voters and candidates along a line", "statement": "When the candidates stand along a line (from left to right, say) and every ballot prefers, of two candidates on the same side of the voter's favourite place, the nearer one, then being preferred by more voters is transitive (no cycles); a candidate whose place is in the middle of the voters (fewer than half of them to either side) beats every other head to head and is the only Copeland winner; if every voter's favourite place is a candidate's, some candidate is beaten by nobody, and with an odd number of voters there is exactly one Copeland winner. If voters have places anywhere and prefer the nearer of any two candidates, the candidate nearest to the middle voter is the only Copeland winner. The instant runoff does not have this property, and without a line there can be cycles.", "quantifier": "all elections with ranked ballots and quantities that are not negative (all parsed texts among them), all places of candidates and voters in any linear order (for distances, any ordered field), any number of candidates and ballots", "why_tests_cant": "the claim is about every arrangement of candidates and voters along a line; tests try single elections", "anchors": ["abiflib/pairwise.py: pairwise_count_dict", "abiflib/pairwise.py: full_copecount_from_abifmodel", "abiflib/pairwise.py: get_Copeland_winners", "abiflib/irvtally.py: IRV_dict_from_jabmod"]}
{"id": "C123", "title": "Approval ballots", "statement": "When every ballot of an election only lists the candidates its voters approve of, on a par (A=B, or A/1,B/1 with the same points everywhere), and the ballots are written down in .abif, each candidate is ahead of another one head to head by the difference of their numbers of approvals, its score is its approvals times the points, the Copeland winners are the candidates with the most approvals, the score winner is the first of these, and STAR announces a candidate exactly if it has more approvals than every other one. The instant runoff does not count approvals.", "quantifier": "all elections on paper with approval ballots (any spelling, comments, names), any number of points", "why_tests_cant": "it relates the results of three methods over all elections of a kind", "anchors": ["abiflib/core.py: convert_abif_to_jabmod", "abiflib/pairwise.py: pairwise_count_dict", "abiflib/pairwise.py: get_Copeland_winners", "abiflib/scorestar.py: enhanced_score_result_from_abifmodel", "abiflib/scorestar.py: STAR_result_from_abifmodel"]}
{"id": "C124", "title": "Counting every ballot several times", "statement": "If in an .abif file every voteline's number is multiplied by the same positive number k and nothing else is changed, then the file is read (or refused) as before with every number of ballots multiplied; and for every election, every method gives the same result with k times the numbers: the instant runoff has the same rounds, eliminations, ties and winners, the pairwise wins, losses and ties (hence Copeland scores and winners) are the same, the scores have the same ranks and order, and STAR the same finalists and winner.", "quantifier": "all texts and all elections (also malformed ones), all multipliers above zero, all ways the choices left to chance fall", "why_tests_cant": "it compares the results for two elections of every size, for every multiplier, including every outcome of the choices made by chance", "anchors": ["abiflib/core.py: convert_abif_to_jabmod", "abiflib/pairwise.py: full_copecount_from_abifmodel", "abiflib/scorestar.py: enhanced_score_result_from_abifmodel", "abiflib/scorestar.py: STAR_result_from_abifmodel", "abiflib/irvtally.py: IRV_dict_from_jabmod"]}
{"id": "C125", "title": "Precincts with the same winner, counted together", "statement": "Two .abif files with the same candidates, read one after the other, are counted together. Then a candidate most voters of each put first above all others wins the instant runoff of the whole in its first round and is its only Copeland winner; a candidate nobody beats head to head in either is a Copeland winner of the whole; with at most four candidates the only Copeland winner of both is a Copeland winner of the whole; the score winner of both is the score winner of the whole (C97_score_join). The instant runoff, STAR and (from five candidates on) Copeland can elect one candidate in both files and another one in the whole. On the command line: for two files that follow the written form of C103, the head-to-head cells of -t paircountjson and the scores and voters of -t json -m STAR for the whole are the sums of those of the two files, and majority and Condorcet winners of both are printed as winners of the whole.", "quantifier": "all pairs of texts and of papers, elections of every size, all schedules of the instant runoff, all environments that hold the files", "why_tests_cant": "it relates the results of three elections of every size", "anchors": ["abiflib/core.py: convert_abif_to_jabmod", "abiflib/pairwise.py: get_Copeland_winners", "abiflib/irvtally.py: IRV_dict_from_jabmod", "abiflib/scorestar.py: STAR_result_from_abifmodel"]}
{"id": "C126", "title": "Withdrawals after elimination", "statement": "Candidates withdraw: they are removed from the list of candidates and from every ballot, and ballots that then name nobody may be dropped. If those who withdraw are exactly those the instant runoff had eliminated before one of its rounds, and the count (no ties on ballots, no tie among those in last place, one winner) is clear cut, the count without them has the same winner, in whatever order the ballots come. If the Copeland winner beats every other candidate head to head, any others may withdraw and it stays the only Copeland winner; if each of some candidates beats every other one, the others may withdraw and the Copeland winners are the same. Without these conditions the withdrawal of candidates who had not won can change the winner of either method. Crossing the names off an .abif file (off its ballots and candidate lines, throwing away ballots that name nobody else) is such a withdrawal. What `abiftool -f abif -t irvjson` prints for a file says whose names may be crossed off, and it prints the same winner for the new file.", "quantifier": "all elections of every size, all rounds, all schedules of both counts, all sets of withdrawn candidates", "why_tests_cant": "it relates the results of two elections of every size, whatever the program does in the rounds before and after", "anchors": ["abiflib/irvtally.py: IRV_dict_from_jabmod", "abiflib/pairwise.py: get_Copeland_winners", "abiflib/core.py: convert_abif_to_jabmod", "abiftool.py: main"]}
{"id": "C127", "title": "A third of the voters and head-to-head wins are enough", "statement": "When no ballot ranks candidates equal, more than a third of the voters rank every candidate of a group above every other candidate, and each candidate of the group beats each of the others head to head, then a candidate of the group wins the instant runoff (is one of the winners, and the winner if there is only one) and all Copeland winners are of the group. In particular a candidate who beats all others head to head and is put first by more than a third of the voters wins both counts alone: the two methods can only disagree about such a candidate if at most a third of the voters put it first. Exactly a third is not enough. `abiftool -f abif -t irvjson FILE` then reports that candidate as the one winner.", "quantifier": "all elections with strict ballots of every size, all groups, all set orders and random choices", "why_tests_cant": "it relates two counting methods on elections of every size and every way the rounds can go", "anchors": ["abiflib/irvtally.py: IRV_dict_from_jabmod", "abiflib/pairwise.py: get_Copeland_winners", "abiftool.py: main"]}
{"id": "C128", "title": "What a few miscounted ballots can change", "statement": "Two .abif files with the same candidates that differ in at most k ballots (misread, lost or found ones, however the lines are arranged) give head-to-head cells that differ by at most k, and the same printed wins, losses and ties if every two candidates are more than 2k ballots apart. A candidate who beats all others by more than 2k ballots is the printed Copeland winner of both; one with more than half of the first choices by more than 2k (top votes of all + 2k < twice its own) wins the printed instant runoff of both in the first round, and so does one to whom the count comes with more than 2k votes to spare in every round; when ballots give between 0 and R points, a leader by more than 2Rk points is the printed score winner of both, and a STAR winner whose place among the two finalists and whose last comparison have such margins is the printed STAR winner of both. Smaller margins do not suffice, and the margin of the last instant-runoff round alone guarantees nothing. For a candidate who beats all others head-to-head the bound of 2k is exact: without it some file differing in at most k ballots takes the lead away. The same holds for a majority of the first choices wherever there is another candidate.", "quantifier": "all pairs of papers of every size that differ in at most k ballots, all k and R, all environments holding the files, all schedules", "why_tests_cant": "it compares the output for an election with that for every election near it", "anchors": ["abiftool.py: main", "abiflib/core.py: convert_abif_to_jabmod", "abiflib/pairwise.py: pairwise_count_dict", "abiflib/pairwise.py: get_Copeland_winners", "abiflib/irvtally.py: IRV_dict_from_jabmod", "abiflib/scorestar.py: STAR_result_from_abifmodel"]}
{"id": "C129", "title": "Every pattern of duels can come out", "statement": "For any candidates whose tokens can be written and any relation saying who beats whom (in which no two candidates beat each other) there is an .abif file with exactly these candidates for which -t winlosstiejson prints exactly these wins, losses and ties: cycles of any length, ties and any number of undefeated candidates are possible. Moreover any system of even margins can be had: for every list of pairs there is a file whose head-to-head cells (-t paircountjson) differ by twice the number of times the pair is listed, less twice the number of times its reverse is.", "quantifier": "all finite sets of writable tokens, all relations and all lists of pairs, all environments that hold the file", "why_tests_cant": "it asserts the existence of a file for each of infinitely many patterns, and that the program prints that pattern", "anchors": ["abiftool.py: main", "abiflib/core.py: convert_abif_to_jabmod", "abiflib/pairwise.py: pairwise_count_dict", "abiflib/pairwise.py: winlosstie_dict_from_pairdict"]}
{"id": "C130", "title": "Every elimination order can come out", "statement": "For every list of candidates whose tokens can be written there is an .abif file with exactly these candidates, without equal rankings, for which the printed instant runoff (-t irvjson) eliminates them one at a time in exactly this order until two are left, of whom the last of the list is printed as the only winner; there are no further rounds. Whatever the order, the file can moreover be chosen so that -t text -m score prints any given candidate as the score winner, even the one who is eliminated first.", "quantifier": "all nonempty lists of distinct writable tokens of any length, all environments that hold the file", "why_tests_cant": "it asserts the existence of a file for each of infinitely many orders, and what the program prints for it in every round", "anchors": ["abiftool.py: main", "abiflib/core.py: convert_abif_to_jabmod", "abiflib/irvtally.py: IRV_dict_from_jabmod"]}
