{
 "claims": [
  {
   "property": "C01",
   "status": "proved",
   "theorems": [
    "NP.C01_terminates"
   ],
   "note": "for sources shorter than 2^63 bytes"
  },
  {
   "property": "C02",
   "status": "proved",
   "theorems": [
    "NP.C02_one_terminal"
   ],
   "note": ""
  },
  {
   "property": "C03",
   "status": "proved",
   "theorems": [
    "NP.C03_no_comments"
   ],
   "note": ""
  },
  {
   "property": "C04",
   "status": "proved",
   "theorems": [
    "NP.C04_collapsed_newlines"
   ],
   "note": ""
  },
  {
   "property": "C05",
   "status": "proved",
   "theorems": [
    "NP.C05_filter_lossless",
    "NP.C05_filter_any_stream",
    "NP.C05_keeps_tokens"
   ],
   "note": ""
  },
  {
   "property": "C06",
   "status": "proved",
   "theorems": [
    "NP.C06_documentation"
   ],
   "note": ""
  },
  {
   "property": "C07",
   "status": "proved",
   "theorems": [
    "NP.C07_marked_is_raw",
    "NP.C07_positions",
    "NP.C07_vector",
    "NP.C07_no_heredoc"
   ],
   "note": "Tokens from heredoc bodies are marked and exempt, as in the statement."
  },
  {
   "property": "C08",
   "status": "proved",
   "theorems": [
    "NP.C08_step",
    "NP.C08_stream"
   ],
   "note": "Per step of any plain lexer object, and for the raw stream outside heredoc bodies."
  },
  {
   "property": "C09",
   "status": "partial",
   "theorems": [
    "NP.C09_step_partial",
    "NP.C09_stream_partial",
    "NP.C09_false"
   ],
   "note": "False of the code for '$-' at the end of the source (C09_false: a NUL byte is appended); proved for everything else."
  },
  {
   "property": "C10",
   "status": "partial",
   "theorems": [
    "NP.C10_keyword_partial",
    "NP.C10_key",
    "NP.C10_name",
    "NP.C10_false"
   ],
   "note": "False of the code for 'defined?' followed by a name byte (C10_false); proved for all other words and positions."
  },
  {
   "property": "C11",
   "status": "proved",
   "theorems": [
    "NP.C11_step"
   ],
   "note": "Context-dependent operators (<<, /, %, ?, :) are outside the property."
  },
  {
   "property": "C12",
   "status": "partial",
   "theorems": [
    "NP.C12_integer_partial",
    "NP.C12_false"
   ],
   "note": "All integer literals below 2^62 in every base and any context, except octal written 0_..., which the code reads as decimal (C12_false: 0_17 has value 17)."
  },
  {
   "property": "C13",
   "status": "partial",
   "theorems": [
    "NP.C13_bignum_partial",
    "NP.C13_false"
   ],
   "note": "All integer literals from 2^62 on, except octal without o and 0d with leading zeros, whose token text denotes another number (C13_false)."
  },
  {
   "property": "C14",
   "status": "partial",
   "theorems": [
    "NP.C14_text",
    "NP.C14_float_partial",
    "NP.C14_false"
   ],
   "note": "C14_text describes the text for every float literal: underscores removed, E written e. The literal statement (text unchanged) holds for literals without E and fails for 1E5 (C14_false)."
  },
  {
   "property": "C15",
   "status": "partial",
   "theorems": [
    "NP.C15_content",
    "NP.C15_single_quoted",
    "NP.C15_source",
    "NP.C15_percent_content",
    "NP.C15_percent_q_partial",
    "NP.C15_false",
    "NP.C15_key"
   ],
   "note": "Proved for '...' and for %q with texts that do not contain the opening delimiter of a pair alone; balanced pairs are covered by C15_percent_content. The rest is false: %q(\\() keeps the backslash (C15_false)."
  },
  {
   "property": "C16",
   "status": "proved",
   "theorems": [
    "NP.C16_double_quoted",
    "NP.C16_source"
   ],
   "note": "For a whole source and for any plain lexer object without open braces of an interpolation (see C28)."
  },
  {
   "property": "C17",
   "status": "proved",
   "theorems": [
    "NP.C17_unicode",
    "NP.C17_code_points",
    "NP.C17_encoding"
   ],
   "note": "Any contents before and behind the escape."
  },
  {
   "property": "C18",
   "status": "proved",
   "theorems": [
    "NP.C18_octal",
    "NP.C18_hex"
   ],
   "note": "Any contents before and behind the escape."
  },
  {
   "property": "C19",
   "status": "partial",
   "theorems": [
    "NP.C19_false",
    "NP.C19_abort_partial",
    "NP.C19_ub_partial",
    "NP.C19_returns_partial"
   ],
   "note": "False as stated (an escape above U+1FFFFF aborts, a huge numbered reference overflows). Proved that these two are the only causes: every other source yields a vector."
  },
  {
   "property": "C20",
   "status": "partial",
   "theorems": [
    "NP.C20_nested_partial",
    "NP.C20_false"
   ],
   "note": "False as stated (second interpolation of one %W word opens a second string); proved for all vectors without } directly followed by a string begin token."
  },
  {
   "property": "C21",
   "status": "proved",
   "theorems": [
    "NP.C21_slash",
    "NP.C21_percent",
    "NP.C21_source"
   ],
   "note": "In any plain lexer object without open braces of an interpolation."
  },
  {
   "property": "C22",
   "status": "proved",
   "theorems": [
    "NP.C22_words",
    "NP.C22_source"
   ],
   "note": "%w, %W, %i and %I without interpolation; escapes and pairs of delimiters inside the words are covered as well."
  },
  {
   "property": "C23",
   "status": "partial",
   "theorems": [
    "NP.C23_false",
    "NP.C23_text_partial",
    "NP.C23_unterminated"
   ],
   "note": "false for <<- lines ending in the identifier and for terminators indented with tabs (C23_false); otherwise the text is exactly the lines before the first that can end the heredoc; no interpolation in the text"
  },
  {
   "property": "C24",
   "status": "partial",
   "theorems": [
    "NP.C24_false",
    "NP.C24_squiggly_partial",
    "NP.C24_keeps"
   ],
   "note": "false for texts of blank lines only (C24_false); proved for all other texts below 2^63 bytes, without interpolation in the text"
  },
  {
   "property": "C25",
   "status": "partial",
   "theorems": [
    "NP.C25_false",
    "NP.C25_remembers_partial",
    "NP.C25_resumes_partial",
    "NP.C25_line_partial"
   ],
   "note": "false when the rest of the line reaches into the next (C25_false); proved: the position is kept up to the Newline token, and lexing resumes there if it has not been passed"
  },
  {
   "property": "C26",
   "status": "proved",
   "theorems": [
    "NP.C26_step",
    "NP.C26_split"
   ],
   "note": ""
  },
  {
   "property": "C27",
   "status": "partial",
   "theorems": [
    "NP.C27_open_partial",
    "NP.C27_literal_partial",
    "NP.C27_content_partial",
    "NP.C27_single_partial",
    "NP.C27_false"
   ],
   "note": "False for :'...' and %s(...), which are accepted unterminated. Proved: any open literal whose closing delimiter does not occur in the rest of the source, whatever else it contains, makes the vector end in an error token; likewise when delimiters occur only escaped or in pairs (no interpolation), and for '...'."
  },
  {
   "property": "C28",
   "status": "partial",
   "theorems": [
    "NP.C28_same_everywhere_partial",
    "NP.C28_false"
   ],
   "note": "False inside braces in an interpolation (C28_false): the nested string object starts with the brace depth of the interpolation. Proved for all contexts without open braces."
  },
  {
   "property": "C29",
   "status": "partial",
   "theorems": [
    "NP.C29_nth_ref_partial",
    "NP.C29_overflow",
    "NP.C29_false"
   ],
   "note": "Numbers below 2^63; above, signed overflow is proved to occur for every such number (C29_overflow)."
  },
  {
   "property": "C30",
   "status": "partial",
   "theorems": [
    "NP.C30_terminates_partial",
    "NP.C30_vector_partial",
    "NP.C30_bound_irrelevant",
    "NP.C30_false"
   ],
   "note": "Every source and every token vector: parsing ends, in exactly one way, with tree, error or failed assertion; never out of the vector; the bound of the model is irrelevant. That no assertion fails is false (witnesses)."
  },
  {
   "property": "C31",
   "status": "partial",
   "theorems": [
    "NP.C31_partial",
    "NP.C31_actual",
    "NP.C31_false"
   ],
   "note": "Source text to tree, for every expression of integers below 2^62 and 23 binary operators. C31_partial: Ruby's table, without the combinations for which the code differs; C31_actual: the table the parser follows, without restriction, with chains of && and of || regrouped. Missing: other atoms. C31_false: six witnesses."
  },
  {
   "property": "C32",
   "status": "proved",
   "theorems": [
    "NP.C32_error_never_succeeds",
    "NP.C32_all_consumed"
   ],
   "note": ""
  },
  {
   "property": "C33",
   "status": "partial",
   "theorems": [
    "NP.C33_actual",
    "NP.C33_partial",
    "NP.C33_false"
   ],
   "note": "For every program built from uses of names, assignments, while loops, methods, classes, modules, blocks, lambdas, superclasses and class << self, nested without bound, from its source text. C33_actual: the trees are those of the rules the parser follows. C33_partial: those of Ruby for programs without lambdas, superclasses and class << self. C33_false: for these three the statement is false. Other constructs (case, rescue, multiple assignment, default parameters) are not covered."
  },
  {
   "property": "C34",
   "status": "proved",
   "theorems": [
    "NP.C34_concat",
    "NP.C34_anywhere"
   ],
   "note": "End to end for sources that are runs of single- and double-quoted literals of any number and contents; for the parser, for runs of tokens of static literals anywhere in a program outside of word arrays."
  },
  {
   "property": "C35",
   "status": "proved",
   "theorems": [
    "NP.C35_bits",
    "NP.C35_node",
    "NP.C35_source"
   ],
   "note": "The mask has exactly the bits of the letters; for every call of parse_interpolated_regexp in any state, and end to end for sources that are one regexp literal with any options."
  },
  {
   "property": "C36",
   "status": "partial",
   "theorems": [
    "NP.C36_line",
    "NP.C36_line_exists",
    "NP.C36_unterminated",
    "NP.C36_unexpected_partial",
    "NP.C36_message",
    "NP.C36_false"
   ],
   "note": "code_line gives exactly the line; every error of every source quotes the reported line, except for 13 message texts that report another token than the current one (false there: witness)."
  },
  {
   "property": "C37",
   "status": "partial",
   "theorems": [
    "NP.C37_false",
    "NP.C37_only_partial",
    "NP.C37_separate_partial"
   ],
   "note": "False as stated (C37_false). Proved for every source: outside interpolated sections a setter name always lies within the reach of def, ::, alias or undef; without those before it, name and = are separate. Missing: names after an interpolated section began, and precision of the reach."
  },
  {
   "property": "C38",
   "status": "proved",
   "theorems": [
    "NP.C38_control_meta"
   ],
   "note": "\\c- is excluded: the code takes the - as the separator of \\C-."
  },
  {
   "property": "C39",
   "status": "proved",
   "theorems": [
    "NP.C39_percent",
    "NP.C39_backtick",
    "NP.C39_symbol"
   ],
   "note": ""
  },
  {
   "property": "C40",
   "status": "proved",
   "theorems": [
    "NP.C40"
   ],
   "note": ""
  },
  {
   "property": "C41",
   "status": "partial",
   "theorems": [
    "NP.C41_partial",
    "NP.C41_spaced_partial",
    "NP.C41_unambiguous",
    "NP.C41_false"
   ],
   "note": "Proved for every program of the grammar of Spec/Grammar.lean, written with any blanks, line ends and comments (C41_partial), with one layout that fits for every program (C41_spaced_partial); the operand levels there ask for parentheses where the parser departs from Ruby (C41_false)."
  },
  {
   "property": "C42",
   "status": "proved",
   "theorems": [
    "NP.C42",
    "NP.C42_carriage_return"
   ],
   "note": "Every text of tokens, line ends and comments (Spec/Lines.lean)."
  },
  {
   "property": "C43",
   "status": "proved",
   "theorems": [
    "NP.C43_balanced",
    "NP.C43_brackets",
    "NP.C43_reject",
    "NP.C43_counts",
    "NP.C43_ends"
   ],
   "note": "For every source that is accepted, over the whole parser. Newlines are left out of the list in C43_balanced because the parser may pass over them again; C43_brackets and C43_counts are about all tokens."
  },
  {
   "property": "C44",
   "status": "proved",
   "theorems": [
    "NP.C44_convertible",
    "NP.C44_update_not_convertible",
    "NP.C44_refuted"
   ],
   "note": "Every accepted source. Failed assertions and asserted-away cases of the transform functions are the outcome none of tr."
  },
  {
   "property": "C45",
   "status": "proved",
   "theorems": [
    "NP.C45_of_token",
    "NP.C45_source_position"
   ],
   "note": "Every accepted source; the second theorem for sources without <<, where C07 says that token positions are true."
  },
  {
   "property": "C46",
   "status": "proved",
   "theorems": [
    "NP.C46_numbers",
    "NP.C46_no_other",
    "NP.C46_no_lost",
    "NP.C46_count"
   ],
   "note": "The numbers of the tree are a permutation of the number tokens of the source, for every source that is accepted; each with the value of its token up to the sign. About the tree of nodes; the conversion to S-expressions is not covered."
  },
  {
   "property": "C47",
   "status": "proved",
   "theorems": [
    "NP.C47",
    "NP.C47_sexp",
    "NP.C47_layout"
   ],
   "note": "For all pairs of sources whose tokens agree but for line, column and comments; C47_layout is the statement about texts (blanks, comments, line ends that do not count). C47_white_space and C47_line show what does count."
  },
  {
   "property": "C48",
   "status": "partial",
   "theorems": [
    "NP.C48_partial",
    "NP.C48_tree",
    "NP.C48_injective",
    "NP.C48_false"
   ],
   "note": "proved for every lexer state at program level or in an interpolation and for every name in front of a text with which the lexer does not depart from Ruby; C48_false: :a==b, :a=~b, :a!=b, :a?>b and :!@ are read differently"
  },
  {
   "property": "C49",
   "status": "proved",
   "theorems": [
    "NP.C49",
    "NP.C49_source",
    "NP.C49_unexpected",
    "NP.C49_unterminated",
    "NP.C36_message"
   ],
   "note": "C49: every error, every source; C49_source: sources without <<; C49_unexpected and C49_unterminated: the excerpt on both sides of the column of ^"
  },
  {
   "property": "C50",
   "status": "proved",
   "theorems": [
    "NP.C50",
    "NP.C50_ends",
    "NP.C50_parsed",
    "NP.C50_places",
    "NP.C50_types",
    "NP.C50_located",
    "NP.C50_lines_false"
   ],
   "note": "All strings. Exact case distinction with the data of every hash; places of hashes are places of the source for sources without <<. C50_lines_false records that messages number lines from 0 or from 1."
  },
  {
   "property": "C51",
   "status": "partial",
   "theorems": [
    "NP.C51_partial",
    "NP.C51_operator",
    "NP.C51_tree",
    "NP.C51_false"
   ],
   "note": "Every visible ASCII character and every escape, at program level or in an interpolation. False of the code for characters of more than one byte, for an escaped line end, and for a condition written without a space behind the question mark (C51_false)."
  },
  {
   "property": "C52",
   "status": "partial",
   "theorems": [
    "NP.C52_partial",
    "NP.C52_parser",
    "NP.C52_tree_partial",
    "NP.C52_rational_false",
    "NP.C52_interpolation_false"
   ],
   "note": "Every number literal that the lexer reads right (C12-C14), at program level, for the tokens and the tree; false for ri in the S-expression (every number) and for all suffixes in an interpolation."
  },
  {
   "property": "C53",
   "status": "partial",
   "theorems": [
    "NP.C53_partial",
    "NP.C53_division_false",
    "NP.C53_key_false",
    "NP.C53_suffix_false",
    "NP.C53_false"
   ],
   "note": "Tokens that do not need the last token are read as written, at every position of an interpolation; false of the code for every division, every key that is a name and every suffix of a number."
  }
 ]
}
