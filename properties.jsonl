{"id": "C01", "title": "Tokenising terminates on every input", "statement": "Asking for the tokens of any byte string (valid Ruby or not, with any nesting of strings, regexps, word arrays, interpolations and heredocs) returns after finitely many steps; it never loops forever.", "quantifier": "for every finite byte string given as source", "why_tests_cant": "Tests only exercise finitely many sources; a loop that fails to advance on one odd byte sequence (NUL bytes, text past end of input, nested heredocs) hangs the caller and is never sampled.", "anchors": ["src/lexer.cpp:Lexer::tokens", "src/lexer.cpp:Lexer::next_token", "src/lexer.cpp:Lexer::build_next_token", "src/lexer/interpolated_string_lexer.cpp", "src/lexer/regexp_lexer.cpp", "src/lexer/word_array_lexer.cpp"]}
{"id": "C02", "title": "The token vector is closed by exactly one terminal token", "statement": "Whenever tokenising returns, the vector is non-empty, its last token is either EOF or an error token (invalid / unterminated), and no earlier token is EOF or an error token.", "quantifier": "for every source whose tokenisation returns", "why_tests_cant": "The parser relies on finding the end marker in every vector; nested lexers use EOF internally as a signal, and only a proof over all nestings shows that it never leaks into the middle.", "anchors": ["src/lexer.cpp:Lexer::tokens", "src/lexer.cpp:Lexer::next_token", "include/natalie_parser/token.hpp:Token::is_valid"]}
{"id": "C03", "title": "Comments never reach the consumer", "statement": "No token of the returned vector is a comment token or a documentation-comment token.", "quantifier": "for every source whose tokenisation returns", "why_tests_cant": "Comments can appear after any token and inside any interpolation; a sample cannot cover every position.", "anchors": ["src/lexer.cpp:Lexer::tokens", "include/natalie_parser/token.hpp:Token::is_comment", "include/natalie_parser/token.hpp:Token::is_doc"]}
{"id": "C04", "title": "Line continuation: newlines are dropped exactly around continuing tokens", "statement": "In the returned vector a newline token never directly follows a token after which an expression must continue (binary operator, comma, opening bracket, dot, ...) and never directly precedes a token that continues the previous line (closing bracket, leading dot, safe navigation, then, ternary colon).", "quantifier": "for every source whose tokenisation returns and every adjacent pair of tokens", "why_tests_cant": "Adjacent pairs can be separated in the source by any number of newlines, comments and documentation blocks; the filter state survives across all of them.", "anchors": ["src/lexer.cpp:Lexer::tokens", "include/natalie_parser/token.hpp:Token::can_follow_collapsible_newline", "include/natalie_parser/token.hpp:Token::can_precede_collapsible_newline"]}
{"id": "C05", "title": "The token filter loses nothing but comments and collapsible newlines", "statement": "The returned vector is the raw token stream, in order and unchanged except for attached documentation, with only comment tokens, documentation tokens and newline tokens removed; a newline that is removed is next (ignoring comments and other newlines) to a continuation token.", "quantifier": "for every raw token stream produced by the lexer", "why_tests_cant": "A dropped or reordered token in a rare context changes the meaning of the program; unit tests compare a few fixed streams.", "anchors": ["src/lexer.cpp:Lexer::tokens"]}
{"id": "C06", "title": "Documentation comments go to the definition they precede", "statement": "A def/class/module token carries documentation iff documentation comments were seen since the last token other than newline or semicolon, and the text is the concatenation, in source order, of those comments.", "quantifier": "for every raw token stream", "why_tests_cant": "The accumulation spans arbitrarily many comment groups, blank lines and separators.", "anchors": ["src/lexer.cpp:Lexer::tokens", "include/natalie_parser/token.hpp:Token::can_have_doc", "include/natalie_parser/token.hpp:Token::set_doc"]}
{"id": "C07", "title": "Token positions are true source positions", "statement": "Every token produced outside heredoc bodies carries a line and column that are the number of newlines before, and the distance to the last newline of, one byte offset of the source; these offsets never decrease along the token stream.", "quantifier": "for every source and every token of it not coming from a heredoc body", "why_tests_cant": "The cursor is threaded through nested lexers, heredoc jumps and one rewind; a single missed increment shifts every later position of the file.", "anchors": ["src/lexer.cpp:Lexer::advance", "src/lexer.cpp:Lexer::rewind", "src/lexer.cpp:Lexer::next_token", "include/natalie_parser/lexer.hpp:Lexer::Lexer"]}
{"id": "C08", "title": "Operators, punctuation and keywords are what the source says", "statement": "Whenever a token with a fixed spelling (operator, punctuation, keyword) is produced, the bytes consumed for it are exactly that spelling.", "quantifier": "for every lexer state and input", "why_tests_cant": "There are over a hundred fixed-spelling tokens in a hand-written nested switch whose branches depend on lexer history; a wrong branch under one history is not sampled.", "anchors": ["src/lexer.cpp:Lexer::build_next_token", "src/lexer.cpp:Lexer::match", "include/natalie_parser/token.hpp:Token::type_value"]}
{"id": "C09", "title": "Names are copied verbatim", "statement": "The literal of an identifier, constant, instance, class or global variable token is exactly the source text of the name, of maximal length, including a trailing ? or ! and, where an assignment-method name is allowed, =.", "quantifier": "for every lexer state and every name", "why_tests_cant": "Names have unbounded length and arbitrary non-ASCII bytes.", "anchors": ["src/lexer.cpp:Lexer::consume_bare_name_or_constant", "src/lexer.cpp:Lexer::consume_word", "src/lexer.cpp:Lexer::consume_global_variable"]}
{"id": "C10", "title": "Keywords are recognised exactly as whole words", "statement": "Where keywords are recognised, a word is tokenised as a keyword iff the whole maximal word (including ?/! suffix) is that keyword; a longer name that merely starts with a keyword is a name, and a keyword immediately followed by a single colon is a hash key.", "quantifier": "for every word and every following text", "why_tests_cant": "There are infinitely many identifiers that have a keyword as a prefix.", "anchors": ["src/lexer.cpp:Lexer::build_next_token", "src/lexer.cpp:Lexer::match"]}
{"id": "C11", "title": "Operators are matched greedily", "statement": "At an operator, the token produced is the longest operator that is a prefix of the remaining text, for all operators whose reading does not depend on what precedes them.", "quantifier": "for every operator and every following text", "why_tests_cant": "The set of following texts is infinite, and the switch nests up to three levels.", "anchors": ["src/lexer.cpp:Lexer::build_next_token"]}
{"id": "C12", "title": "Integer literals have the value they denote", "statement": "A decimal, 0d, 0x, 0o, 0b or bare-octal literal, with or without single underscores between digits, that fits 62 bits becomes a fixnum token whose value is the number the digits denote in that base.", "quantifier": "for every digit string in every base", "why_tests_cant": "Values and underscore placements are unbounded; boundary and saturation behaviour depends on exact arithmetic.", "anchors": ["src/lexer.cpp:Lexer::consume_numeric", "src/lexer.cpp:Lexer::chars_to_fixnum_or_bignum_token"]}
{"id": "C13", "title": "Big integer literals keep their value", "statement": "An integer literal above the fixnum range becomes a bignum token whose text, read the way the s-expression creator reads it (0x/0o/0b/0 prefixes), denotes the number written in the source.", "quantifier": "for every digit string in every base whose value exceeds 2^62-1", "why_tests_cant": "Only sources with very long digit strings reach this path.", "anchors": ["src/lexer.cpp:Lexer::consume_numeric", "src/lexer.cpp:Lexer::chars_to_fixnum_or_bignum_token", "ext/natalie_parser/mri_creator.hpp:MRICreator::append_bignum"]}
{"id": "C14", "title": "Float literals keep their digits", "statement": "The text converted to a floating point number is the source text of the literal with underscores removed.", "quantifier": "for every float literal (integer part, fraction, exponent)", "why_tests_cant": "Unbounded digit strings with optional parts and underscores.", "anchors": ["src/lexer.cpp:Lexer::consume_numeric_as_float"]}
{"id": "C15", "title": "Single-quoted strings round-trip", "statement": "For every byte string without NUL, quoting it by escaping backslashes and the closing delimiter and lexing it yields one string token with exactly the original bytes, for '...' and for %q with any delimiter pair; unescaped balanced delimiter pairs are also kept verbatim.", "quantifier": "for every byte string and delimiter pair", "why_tests_cant": "Contents are unbounded and combine escapes and nested delimiters.", "anchors": ["src/lexer.cpp:Lexer::consume_single_quoted_string", "src/lexer.cpp:Lexer::consume_percent_string"]}
{"id": "C16", "title": "Double-quoted strings round-trip", "statement": "For every byte string without NUL, writing it between double quotes with backslash, quote and # escaped and lexing it yields a begin token, one string token with exactly the original bytes (none if empty) and an end token.", "quantifier": "for every byte string", "why_tests_cant": "Contents are unbounded.", "anchors": ["src/lexer/interpolated_string_lexer.cpp:InterpolatedStringLexer::consume_string", "src/lexer.cpp:Lexer::consume_escaped_byte"]}
{"id": "C17", "title": "Unicode escapes are encoded as UTF-8", "statement": "\\u{...} with a code point up to 10FFFF (and \\uXXXX) appends bytes that decode, by the UTF-8 definition, to exactly that code point.", "quantifier": "for every code point from 0 to 0x10FFFF and every list of them", "why_tests_cant": "Over a million code points with four length classes and boundary bit patterns.", "anchors": ["src/lexer.cpp:Lexer::utf32_codepoint_to_utf8", "src/lexer.cpp:Lexer::consume_escaped_byte", "src/lexer.cpp:Lexer::consume_hex_number"]}
{"id": "C18", "title": "Octal and hex escapes denote the byte they name", "statement": "\\ooo (1-3 octal digits) and \\xHH (1-2 hex digits) append the single byte whose value is the number modulo 256, and consume exactly those digits.", "quantifier": "for every digit combination and every following text", "why_tests_cant": "The following text decides how many digits belong to the escape.", "anchors": ["src/lexer.cpp:Lexer::consume_octal_number", "src/lexer.cpp:Lexer::consume_hex_number", "src/lexer.cpp:Lexer::consume_escaped_byte"]}
{"id": "C19", "title": "Tokenising never aborts the process", "statement": "For no source does tokenising reach an unreachable-code abort or undefined behaviour: it always returns a vector.", "quantifier": "for every byte string", "why_tests_cant": "Aborts hide in single escapes such as a too-large code point; fuzzing inserts one random character only.", "anchors": ["src/lexer.cpp:Lexer::utf32_codepoint_to_utf8", "src/lexer.cpp:Lexer::consume_nth_ref"]}
{"id": "C20", "title": "Interpolation tokens are properly nested", "statement": "In every token vector that ends in EOF, begin and end tokens of strings, symbols, shell strings, regexps, word arrays and #{...} sections match like brackets.", "quantifier": "for every source whose tokenisation ends in EOF", "why_tests_cant": "Nesting depth is unbounded and the five state machines interact.", "anchors": ["src/lexer/interpolated_string_lexer.cpp", "src/lexer/regexp_lexer.cpp", "src/lexer/word_array_lexer.cpp", "src/lexer.cpp:Lexer::next_token"]}
{"id": "C21", "title": "Regexp literals keep their source and options", "statement": "A regexp literal without interpolation yields begin, one string token with the source of the pattern in which only escaped delimiters and slashes lose their backslash, and an end token carrying exactly the option letters that follow.", "quantifier": "for every pattern and option string", "why_tests_cant": "Patterns are unbounded.", "anchors": ["src/lexer/regexp_lexer.cpp:RegexpLexer::consume_regexp", "src/lexer/regexp_lexer.cpp:RegexpLexer::consume_options"]}
{"id": "C22", "title": "%w/%i arrays split on whitespace", "statement": "Lexing %w[...] (any delimiter) around a list of non-empty words without special characters, separated by any non-empty runs of whitespace, yields exactly those words in order between the array begin token and the closing token.", "quantifier": "for every list of words and every separators", "why_tests_cant": "Lists are unbounded; leading, trailing and repeated whitespace interact with the state machine.", "anchors": ["src/lexer/word_array_lexer.cpp:WordArrayLexer::consume_array"]}
{"id": "C23", "title": "A heredoc contains exactly the lines up to its terminator line", "statement": "For <<ID (and quoted forms) the content is exactly the text of the lines between the line that starts the heredoc and the first later line equal to ID; with <<- the terminator may be indented, and a line is a terminator only if it consists of whitespace followed by ID.", "quantifier": "for every identifier, every list of body lines and every following text", "why_tests_cant": "Body lines are arbitrary, including ones that end with, contain or nearly equal the identifier.", "anchors": ["src/lexer.cpp:Lexer::consume_heredoc", "src/lexer.cpp:is_valid_heredoc"]}
{"id": "C24", "title": "Squiggly heredocs lose exactly the common indentation", "statement": "With <<~ every line of the body loses as many leading whitespace bytes as the least indented non-blank line has, blank lines keep only what lies beyond that, and nothing else changes.", "quantifier": "for every list of body lines", "why_tests_cant": "Any number of lines with any indentation, including bodies with only blank lines.", "anchors": ["src/lexer.cpp:get_heredoc_indent", "src/lexer.cpp:dedent_heredoc"]}
{"id": "C25", "title": "After a heredoc lexing resumes after its terminator", "statement": "The rest of the line on which a heredoc starts is lexed normally, and at its end lexing continues at the first byte after the terminator line of the last heredoc opened on that line.", "quantifier": "for every source text around a heredoc", "why_tests_cant": "Depends on the interplay of the heredoc stack with arbitrary rest-of-line tokens.", "anchors": ["src/lexer.cpp:Lexer::consume_heredoc", "src/lexer.cpp:Lexer::build_next_token"]}
{"id": "C26", "title": "The preceding-whitespace flag is accurate", "statement": "A token produced directly by the program-level lexer is marked as preceded by whitespace iff a blank, tab or backslash-newline directly precedes it (after the previous token).", "quantifier": "for every source and every token", "why_tests_cant": "The flag decides between operator, argument, regexp, heredoc and element reference readings; it must be right after every kind of token.", "anchors": ["src/lexer.cpp:Lexer::skip_whitespace", "src/lexer.cpp:Lexer::next_token"]}
{"id": "C27", "title": "Unterminated literals are always reported", "statement": "If a quoted literal is still open at the end of the input, the token vector ends in an error token.", "quantifier": "for every source and literal kind", "why_tests_cant": "Any literal can be cut at any byte.", "anchors": ["src/lexer.cpp:Lexer::consume_single_quoted_string", "src/lexer.cpp:Lexer::consume_percent_symbol", "src/lexer/interpolated_string_lexer.cpp", "src/lexer/word_array_lexer.cpp", "src/lexer/regexp_lexer.cpp"]}
{"id": "C28", "title": "A string literal means the same wherever it stands", "statement": "A double-quoted string literal ends at its own closing quote no matter in which lexical context (top level, inside an interpolation, inside braces in an interpolation) it occurs.", "quantifier": "for every context and string content", "why_tests_cant": "Contexts nest without bound.", "anchors": ["include/natalie_parser/lexer/interpolated_string_lexer.hpp:InterpolatedStringLexer", "src/lexer/interpolated_string_lexer.cpp"]}
{"id": "C29", "title": "Numbered match references keep their number", "statement": "$N yields a reference token with the number N.", "quantifier": "for every digit string N starting with a non-zero digit", "why_tests_cant": "N is unbounded, the implementation is fixed width.", "anchors": ["src/lexer.cpp:Lexer::consume_nth_ref"]}
{"id": "C30", "title": "Parsing terminates on every input", "statement": "Parsing any source returns a tree or raises an error after finitely many steps.", "quantifier": "for every token vector and every source", "why_tests_cant": "The parser inserts tokens into its own token vector while it runs; only a progress argument over all of its mutually recursive functions excludes a loop.", "anchors": ["src/parser.cpp:Parser::tree", "src/parser.cpp:Parser::parse_expression", "src/parser.cpp:Parser::null_denotation", "src/parser.cpp:Parser::left_denotation"]}
{"id": "C31", "title": "Operator precedence and associativity", "statement": "For every expression built from atoms, binary operators and parentheses, printing it with parentheses only where the Ruby precedence table requires them, and parsing the result, gives back the expression.", "quantifier": "for every expression tree over the binary operators", "why_tests_cant": "Operators combine without bound; a table entry out of order only shows in specific neighbours.", "anchors": ["src/parser.cpp:Parser::parse_expression", "src/parser.cpp:Parser::get_precedence", "src/parser.cpp:Parser::higher_precedence", "src/parser.cpp:Parser::parse_infix_expression"]}
{"id": "C32", "title": "Lexical errors are never swallowed", "statement": "If the token vector of a source ends in an error token, parsing that source never succeeds; if parsing succeeds, every token up to EOF has been consumed.", "quantifier": "for every source", "why_tests_cant": "The error token can occur at any point of any construct.", "anchors": ["src/parser.cpp:Parser::tree", "src/parser.cpp:Parser::validate_current_token"]}
{"id": "C33", "title": "Local variables are resolved by scope", "statement": "A bare name without arguments is a local variable reference iff it was assigned or bound earlier in the same scope or in an enclosing block scope; names bound inside a def, class or module body or block never become local variables outside of it.", "quantifier": "for every sequence of statements and nesting of scopes", "why_tests_cant": "Scopes nest without bound and assignments occur in arbitrary order.", "anchors": ["src/parser.cpp:Parser::parse_identifier", "src/parser.cpp:Parser::parse_assignment_expression", "src/parser.cpp:Parser::parse_def", "src/parser.cpp:Parser::parse_iter_expression"]}
{"id": "C34", "title": "Adjacent string literals concatenate", "statement": "Any run of adjacent static string literals parses to the same node as the single literal with the concatenated contents.", "quantifier": "for every list of string contents", "why_tests_cant": "Runs are unbounded, and the merge mutates shared nodes.", "anchors": ["src/parser.cpp:Parser::concat_adjacent_strings", "src/node/string_node.cpp:StringNode::append_string_node", "src/node/interpolated_string_node.cpp:InterpolatedStringNode::append_string_node"]}
{"id": "C35", "title": "Regexp option letters set exactly their bits", "statement": "The option bit mask of a regexp has a bit set iff the corresponding letter occurs among the options, whatever the order and repetition.", "quantifier": "for every option string", "why_tests_cant": "Option strings are unbounded.", "anchors": ["src/parser.cpp:Parser::parse_interpolated_regexp"]}
{"id": "C36", "title": "Error messages quote the offending line", "statement": "The source excerpt of a syntax error is exactly the text of the source line with the reported number, without its newline.", "quantifier": "for every source and line number", "why_tests_cant": "Sources and line numbers are unbounded; off-by-one errors appear at the first and last line.", "anchors": ["src/parser.cpp:Parser::code_line"]}
{"id": "C37", "title": "Setter names are read only where a method name is expected", "statement": "A name token ends in = only directly after def, ::, undef/alias or in a name list they start; everywhere else (in particular after a dot) the name and the assignment operator are separate tokens.", "quantifier": "for every source and every name token", "why_tests_cant": "The state that allows the suffix is set by earlier tokens and cleared by later ones, over arbitrarily long histories.", "anchors": ["src/lexer.cpp:Lexer::next_token", "src/lexer.cpp:Lexer::consume_bare_name_or_constant"]}
{"id": "C38", "title": "Control and meta escapes denote the byte they name", "statement": "\\C-x, \\cx, \\M-x, \\M-\\C-x and \\C-\\M-x (x printable, not a backslash) append the single byte x & 0x1f (0x7f for ?), with the top bit set for the meta forms, wherever they stand in a literal.", "quantifier": "for every printable byte, every context before and after it", "why_tests_cant": "The contents around the escape are unbounded and the escape must consume exactly its own bytes.", "anchors": ["src/lexer.cpp:Lexer::consume_escaped_byte"]}
{"id": "C39", "title": "All interpolating literals share the contents of double-quoted strings", "statement": "%(...), %Q(...), %x(...) with any delimiters, `...` and :\"...\" yield their begin token, one string token with the bytes the content denotes by the rules of double-quoted strings (none if empty) and their end token; balanced unescaped pairs of delimiters belong to the content.", "quantifier": "for every content and delimiter", "why_tests_cant": "Contents and nesting depth of delimiters are unbounded.", "anchors": ["src/lexer.cpp:Lexer::consume_percent_string", "src/lexer/interpolated_string_lexer.cpp:InterpolatedStringLexer::consume_string"]}
{"id": "C40", "title": "Tokens written next to each other are read back", "statement": "A text made by writing tokens one after another, each with or without blanks in front (spaces, tabs, backslash and line end) (names, constants, keywords, operators, integers, quoted strings, symbols, instance, class and global variables, hash keys), gives exactly these tokens with their texts, numbers and whitespace flags, provided no token is followed by a byte that could belong to it; in particular a method name may follow def, '.' and '::'.", "quantifier": "for every list of tokens", "why_tests_cant": "The reading of a token depends on the previous token, the expected method names and the next bytes; the combinations of neighbours are unbounded.", "anchors": ["src/lexer.cpp:Lexer::build_next_token", "src/lexer.cpp:Lexer::next_token", "src/lexer.cpp:Lexer::consume_bare_name_or_constant", "src/lexer.cpp:Lexer::match"]}
{"id": "C41", "title": "Programs of a part of Ruby's grammar are parsed to their S-expressions", "statement": "A program made of literals, variables, calls with and without parentheses, arguments with splats, keys and blocks, operators, assignments (also multiple, operator, attribute and index assignments), modifiers, if/unless/while/until/for/case/begin/rescue/else/ensure, def and blocks with parameters of all kinds (destructuring, default values, splats, keywords and block parameters), endless methods, class, module, singleton classes, END, lambdas with parameters, case with patterns (names, literals, ranges, constants, pins, array and hash patterns, alternatives, bindings) and jumps, written as tokens with any blanks that keep the tokens apart, with line ends and comments (line ends where the lexer drops them, and between statements and after then, else and do, alone or with semicolons) and with the parentheses Ruby's table of operators requires, is parsed without error to a tree whose S-expression is the one the grammar assigns to the program; names are local variables exactly where an assignment or parameter before them says so.", "quantifier": "for every program of the grammar and every way to put blanks, line ends and comments", "why_tests_cant": "Programs nest without bound; whether a token continues an expression depends on every construct that is still open, on the local variables and on the blanks.", "anchors": ["src/parser.cpp:Parser::tree", "src/parser.cpp:Parser::parse_expression", "src/parser.cpp:Parser::parse_body", "src/parser.cpp:Parser::parse_call_args", "src/parser.cpp:Parser::parse_rest_of_begin", "src/parser.cpp:Parser::get_precedence"]}
{"id": "C42", "title": "Texts of several lines with comments are read back", "statement": "A text made of tokens, line ends, comments at the end of lines and comments that begin lines gives exactly the tokens, and a Newline token for each line end except the ones after a token that needs a continuation (operators, ',', '.', opening brackets, '|' and so on) and the ones before '.', '&.', a closing bracket, the ':' of a conditional or 'then', whatever comments stand between; comments give no tokens.", "quantifier": "for every list of tokens, line ends and comments", "why_tests_cant": "Whether a line end counts depends on the next token after any number of line ends and comments, and whether a comment is documentation depends on the tokens that were kept so far.", "anchors": ["src/lexer.cpp:Lexer::tokens", "src/lexer.cpp:Lexer::build_next_token", "src/lexer.cpp:Lexer::skip_whitespace", "include/natalie_parser/token.hpp:Token::can_precede_collapsible_newline", "include/natalie_parser/token.hpp:Token::can_follow_collapsible_newline"]}
{"id": "C43", "title": "What the parser accepts is balanced", "statement": "When parsing a source returns a tree, every '(', '{', '[', '%w[' and its relatives, and every beginning of an interpolated string, symbol, regexp, shell command or '#{' in the list of tokens is closed by its counterpart, properly nested; every begin, case, class, module and for is closed by an end, and every end closes one of these or a def, do, if, unless, while or until, properly nested with the other brackets (keywords in the place of method names aside). A source whose tokens are not balanced is never accepted.", "quantifier": "for every source", "why_tests_cant": "The brackets are consumed by some forty functions of the parser that call one another; a single one that forgets to require its closing token would accept unbalanced programs of a shape nobody tried.", "anchors": ["src/parser.cpp:Parser::expect", "src/parser.cpp:Parser::tree", "src/parser.cpp:Parser::parse_body", "src/parser.cpp:Parser::parse_call_expression_with_parens", "src/parser.cpp:Parser::parse_iter_expression", "src/parser.cpp:Parser::parse_interpolated_body"]}
{"id": "C44", "title": "Trees can be converted to S-expressions", "statement": "When parsing a source returns a tree, converting the tree to an S-expression succeeds: no 'transform' function fails one of its assertions or meets a node it does not know. The one exception is an operator assignment to the result of a call with arguments, such as f(1) += 2, which the parser accepts and whose conversion fails an assertion.", "quantifier": "for every source", "why_tests_cant": "The conversion functions rely on unwritten conditions on their children (which nodes may stand as parameters, in patterns, as assignment targets, which tokens have a literal); a tree that violates one can come from any of the functions of the parser, called in any combination.", "anchors": ["src/parser.cpp:Parser::tree", "ext/natalie_parser/natalie_parser.cpp:node_to_ruby", "include/natalie_parser/node/op_assign_accessor_node.hpp:OpAssignAccessorNode::transform", "include/natalie_parser/node/identifier_node.hpp:IdentifierNode::transform", "include/natalie_parser/node/array_pattern_node.hpp:ArrayPatternNode::transform"]}
{"id": "C45", "title": "Every node of a tree has a true source position", "statement": "When parsing a source returns a tree, every node of the tree, at any depth, carries the line and column of one of the tokens of the source, or those of the beginning of the source. If the source does not contain '<<' (so has no heredocs), they are the line and column of an offset of the source.", "quantifier": "for every source and every node of its tree", "why_tests_cant": "Nodes are made with tokens that were saved before arbitrary recursive calls, with tokens of other nodes and with tokens made up by the parser itself; tests of positions compare a few nodes of a few programs.", "anchors": ["src/parser.cpp:Parser::tree", "include/natalie_parser/node/node.hpp:Node::line", "include/natalie_parser/node/node.hpp:Node::column", "src/lexer.cpp:Lexer::build_token"]}
{"id": "C46", "title": "No number is lost, added, doubled or changed", "statement": "When parsing a source returns a tree, the number literals of the tree (integers, big integers and floats, at any depth, including those inside rationals and complex numbers, patterns, parameters, interpolations and heredocs) correspond one to one to the number tokens of the source, with the same value up to the sign; the tree contains no other number except those that __LINE__ stands for.", "quantifier": "for every source", "why_tests_cant": "A number is handed from function to function through every construct of the language; dropping or doubling a child node, or rewinding over a token already turned into a node, in a single branch of a single function would go unnoticed unless a test exercised this branch with a number at this place.", "anchors": ["src/parser.cpp:Parser::tree", "src/parser.cpp:Parser::parse_lit", "src/parser.cpp:Parser::parse_unary_operator", "src/parser.cpp:Parser::parse_call_args", "src/parser.cpp:Parser::parse_case_in_pattern", "src/parser.cpp:Parser::parse_iter_expression"]}
{"id": "C47", "title": "Layout and comments do not change the tree", "statement": "Two sources whose tokens agree in type, text, number and in whether white space stands in front of them are both accepted, both rejected with a syntax error, or both end in the same failed assertion. If they are accepted, their trees agree in everything but line and column numbers, comments and the value of __LINE__; without __LINE__ the S-expressions returned to Ruby are equal. In particular the number of blanks between tokens, the comments and the line ends that do not count are free.", "quantifier": "all pairs of sources, all file names", "why_tests_cant": "The statement relates any two sources with the same tokens; a test relates two written-out sources. Positions and comments are carried through every parser function, so one function that looks at a line number in a rare production breaks it.", "anchors": ["src/parser.cpp:229-244 Parser::tree", "include/natalie_parser/token.hpp Token", "include/natalie_parser/node/node.hpp:129 Node::transform"]}
{"id": "C48", "title": "A symbol literal has the name that is written", "statement": "A colon with the name of a symbol directly behind it is one symbol token whose text is exactly this name, whatever stands in front of it and behind it: operators (the longest one that fits, so :<=> is not :<= followed by >), names with or without a suffix ?, ! or =, and instance, class and global variables. In {:a=>1} the = is not taken into the name; in :a==b, :a=~b and :a!=b it is not either. A source that is one symbol is parsed to s(:lit, :name), and different names give different symbols.", "quantifier": "all names of symbols, all texts in front of and behind them", "why_tests_cant": "Names are unbounded, and where a name ends depends on up to two bytes of what follows; the wrong readings are all accepted and give another well-formed program.", "anchors": ["src/lexer.cpp:838-956 Lexer::consume_symbol", "src/lexer.cpp Lexer::build_next_token case ':'", "src/parser.cpp Parser::parse_symbol"]}
{"id": "C49", "title": "A syntax error points at a place of the source", "statement": "The line and column reported by any syntax error that reports a place are those of a token of the source (or of its beginning); in a source without << they are those of an offset of the source. In the messages whose excerpt is the reported line (C36), the ^ stands under this offset: what precedes its column in the excerpt is what precedes the offset in its line, and what follows is what follows.", "quantifier": "for every source and every syntax error", "why_tests_cant": "There are over a hundred places that throw, each with a token or node at hand, some of them made up by the parser (reinserted newlines, synthetic nodes with a default token); a test sees the one it provokes.", "anchors": ["src/parser.cpp:3122-3230 Parser::throw_error, throw_unexpected, throw_unterminated_thing", "src/parser.cpp:3251-3271 Parser::validate_current_token", "src/parser.cpp:281-297 Parser::reinsert_collapsed_newline"]}
{"id": "C50", "title": "NatalieParser.tokens describes the tokens of the source", "statement": "Whenever the lexer returns a vector for a string without NUL byte, NatalieParser.tokens(code, locations) either returns an array with exactly one hash for each token but the final EOF, in order, each with the type of its token, its text as a String or Symbol, its number, its regexp options, and the zero-based line and column if and only if asked for; or it raises SyntaxError, if and only if the vector ends in an error token; or EncodingError, if and only if a name is not UTF-8. No assertion of the extension fails. A NUL byte gives ArgumentError. If the source can be parsed, there is no SyntaxError. Asking for locations changes nothing else. Equal arrays have tokens of equal types, up to heredocs and strings with interpolation.", "quantifier": "for every string, with and without locations", "why_tests_cant": "The conversion aborts for a type without name and asserts a literal for eleven types; that every token the lexer can produce has them is a fact about the whole lexer, not about samples.", "anchors": ["ext/natalie_parser/natalie_parser.cpp:56-108 token_to_ruby", "ext/natalie_parser/natalie_parser.cpp:110-133 tokens_on_instance, tokens", "src/token.cpp:7-25 Token::validate", "include/natalie_parser/token.hpp:246-249 Token::literal_string"]}
{"id": "C51", "title": "A question mark with a character behind it is this character", "statement": "A ? directly followed by a character - a byte of visible ASCII other than \\, or \\ and an escape with the meaning it has in a double-quoted string - is exactly one string token holding this character, wherever a token may begin, and lexing goes on directly behind it. A ? followed by white space or the end of the source is the operator of the conditional expression. A source consisting of such a literal is parsed to the string.", "quantifier": "for every character, every escape, every text around it and every state of the lexer outside literals", "why_tests_cant": "The test suite has the single literal ?a; the escapes are unboundedly many, and where the literal ends depends on how far the escape reaches.", "anchors": ["src/lexer.cpp:519-536 Lexer::build_next_token", "src/lexer.cpp:1428-1546 Lexer::consume_escaped_byte"]}
{"id": "C52", "title": "The suffixes i, r and ri make complex and rational numbers", "statement": "A number literal of any base, size or kind, directly followed by i, r or ri and no further name byte, is the token of the number followed by the token of the suffix, and is parsed to s(:lit, Complex(0, n)), s(:lit, Rational(n)) or s(:lit, Complex(0, Rational(n))) of exactly this number, wherever a number may stand.", "quantifier": "for every number literal, suffix and text around it, and every state of the parser", "why_tests_cant": "The tests compare 3ri with must_equal, and Complex(0, 3) == Complex(0, Rational(3, 1)) in Ruby, so they pass although the rational number is lost; none has a suffix inside an interpolation, where it is read as a method call.", "anchors": ["src/lexer.cpp:702-718 Lexer::build_next_token", "src/lexer.cpp:41-56 Lexer::tokens", "src/parser.cpp:1710-1746 Parser::parse_lit", "include/natalie_parser/node/complex_node.hpp:21-46 ComplexNode::transform", "include/natalie_parser/node/rational_node.hpp:20-40 RationalNode::transform"]}
{"id": "C53", "title": "Code in an interpolation is read like other code", "statement": "The code between #{ and } of a string, symbol, shell command, heredoc or word array is made of the same tokens as if it stood alone; in particular a / after a value is a division and a name followed by a colon is a key.", "quantifier": "for every source and every position in an interpolation that the lexer comes to", "why_tests_cant": "The tests interpolate only names, calls and short sums; a division, a keyword argument or a suffixed number in an interpolation takes a branch that depends on a token the nested lexer never has.", "anchors": ["src/lexer.cpp:41-56 Lexer::tokens", "src/lexer.cpp:65-85 Lexer::next_token", "src/lexer.cpp:293-330 Lexer::build_next_token", "src/lexer.cpp:972-1003 Lexer::consume_bare_name_or_constant", "src/lexer/interpolated_string_lexer.cpp:71-75 InterpolatedStringLexer::start_evaluation"]}
