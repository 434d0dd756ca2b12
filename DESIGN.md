# Formal model of natalie_parser

Source modelled: `/repo` (natalie-lang/natalie_parser, C++). Properties: `properties.jsonl`.
Model, specification and proofs: `lean/` (Lean 4.33.0, `lake build` in `lean/`).

## Layout

* `lean/Verif/Model/*`  executable model, one Lean definition per C++ function, each citing file and lines.
* `lean/Verif/Spec/*`   small independent specifications used in theorem statements.
* `lean/Verif/Proofs/*` helper lemmas.
* `lean/Verif/Props/*`  the property theorems, one file per group, with a non-vacuity `example` beside each.

## Modelling decisions

* Source bytes are `Char`s with code < 256; a source is a `List Char`. The model accepts any `Char`; where a
  statement depends on byte size it says so. C++ `char` is signed (x86): code ≥ 128 counts as negative in
  comparisons and arithmetic. `<ctype.h>` functions are those of the "C" locale.
* Every lexer object is a record (`Lx`); the pointer `m_nested_lexer` is modelled by a list of records, innermost
  first. `Lexer::next_token` on the outermost object recurses through the pointers; on the list it recurses from
  the head, and an EOF of the head pops it and continues with the next record (same order of effects).
* `m_last_token` and `m_last_method_name` are only inspected for their type / validity, so only these are kept.
* Loops become structural recursion over the remaining text, or recursion on fuel with a separate outcome for
  exhausted fuel (`Res.fuel`), which the termination theorems show unreachable.
* Outcomes: `ok`, `abort` (TM_UNREACHABLE / failed assert), `ub` (undefined behaviour), `syntaxError`, `fuel`.
* `size_t` is unbounded `Nat` except where wrap-around is observable (heredoc dedent, call depth), where it is
  modelled modulo 2^64 / 2^32.  `int m_pair_depth` is `Nat` (overflow needs 2^31 nested delimiters).
* Doubles are not modelled; a float token keeps the character string handed to `atof`.
* `m_file` is constant and dropped in the lexer; the parser keeps it in its context.
* The parser (`Model/PState.lean`, `Model/Parser.lean`) is a state and exception monad. The token vector with `m_index`
  is a zipper. The functions call each other recursively: every function takes a record of the functions through
  which all cycles of calls go, and `knot` ties the record to itself with one unit of fuel per nested call. Outcomes:
  a node, a `SyntaxError`, `abort` (TM_UNREACHABLE, failed `assert`), `ub` (null pointer formatted, empty stack
  popped), `overrun` (index moved out of the vector), `fuel`.
* Node classes are constructors of one type `Node` with the data their `transform` methods use. Tokens of inner blocks
  are dropped. `FloatNode::negative` is read off the text of the literal (underflow of `atof` to zero is not modelled).
  `parse_alias_arg` casts a dynamic symbol to `SymbolNode`; the model keeps the node it is. Nodes are shared and
  mutated by `append_string_node`; no node is used again after it was appended, so the model copies.
* `Model/Sexp.lean` models `transform` with `MRICreator`: the S-expression without positions, comments and string
  encodings, i.e. what `Sexp#==` compares. Errors of Ruby's own constructors (bad regexps) are not modelled.
* `Model/Message.lean` models the text of the messages.
* `Model/Ruby.lean` models `NatalieParser.tokens`. Of MRI it assumes that `StringValueCStr` raises for NUL bytes, that
  `rb_intern3` raises for names that are not UTF-8 (RFC 3629), and that the other functions succeed. Calls without arguments
  (`tokens` passes `argv[0]` on without looking at `argc`) are outside the model.
* The TM support library (`external/tm`, an empty submodule in /repo) is assumed: byte-string operations mean what
  their names say, `strip_trailing_spaces` removes trailing ' ' only, `chomp` removes the last byte,
  `Vector::at/last/pop` assert bounds, `TM_UNREACHABLE` aborts.

## Plan per property

| id | what is modelled | how it is proved |
|----|------------------|------------------|
| C01 | whole lexer incl. nested lexers | well-founded measure on the lexer stack: every raw token decreases it |
| C02 C03 | `Lexer::tokens` over the whole lexer | induction over the token loop |
| C04 C05 C06 | `Lexer::tokens` filter over an arbitrary raw stream | invariants / refinement to a declarative filter |
| C07 | cursor of every lexer object | invariant: cursor equals position computed from source and offset |
| C08 C09 C10 C11 | `build_next_token` | case analysis with text-consumed relation |
| C12 C13 C14 | `consume_numeric*` | induction over digits; C13 false for bare octal: negation + partial |
| C15 C16 C21 C22 | quoted literals | round trip by induction over content |
| C17 C18 | escapes | bit arithmetic against independent UTF-8 decoder |
| C19 | aborts / UB of the lexer | false: witnesses; partial: exact characterisation |
| C20 | stack of lexer states | invariant: open brackets of emitted tokens = function of the stack |
| C23 C24 C25 | heredocs | induction over lines; C23 false for `<<-`, C24 false for blank bodies: negation + partial |
| C26 | `skip_whitespace`, `next_token` | direct |
| C27 C28 C29 | as above | false in general: witnesses + partial theorems |
| C30 | whole parser on token vectors | weakest preconditions; weight of the tokens left as measure over all functions |
| C32 | whole parser | invariant: tokens passed and left are the vector, up to newlines |
| C33 | locals handling | invariants / scope lemmas |
| C37 | `post`, names, whole lexer | invariant relating the state of the lexer to the tokens so far |
| C31 | source text of expressions of binary operators | lexing composed token by token; rules of evaluation (Proofs/ParseEval.lean); induction over the tokens of an expression |
| C33 | source text of programs of statements and nested scopes | pieces of text give tokens (`Gives`); rules of evaluation; induction over the tokens of a program |
| C34 C35 | string concatenation, regexp options | induction over lists |
| C40 | whole outermost lexer, tokens without own lexer | one lemma per kind of token about `dispatch`; induction over the list of tokens |
| C41 | source text to S-expression for a grammar with some 90 constructs and patterns (Spec/Grammar.lean) | C42 for the tokens; per construct a lemma with rules of evaluation for any state in which the construct may stand (Proofs/Gram); induction over the syntax; for the layout with all blanks, neighbours of tokens by induction too (Proofs/Gram/Fit) |
| C42 | the loop of `tokens()` over the outermost lexer: tokens, line ends and comments | C40's lemma per token, lemmas for `\n` and `#`; induction over the parts with the collapsing state of `tokens()` as a function of the last token kept |
| C43 | the whole parser, all sources that are accepted | a calculus for partial correctness (`okp`, Proofs/Bal/Base.lean): for every function of the parser, if it returns a node then the tokens it consumed are balanced after any balanced beginning (`Bl`); one lemma per function and per loop, tied with induction over the fuel (`knot_good`); `end` in the place of a method name is the constructor `name` of `Spec.Opened` |
| C44 C45 | the whole parser and the conversion to S-expressions, all sources that are accepted | a condition on trees (`wf`, Proofs/Val/Tree.lean) that says what each `transform` function asserts, with the positions of tokens as a parameter; it makes the conversion succeed (`tr_some`, induction over trees); one lemma per function of the parser that what it returns meets it (`okv`), tied with induction over the fuel (`knot_goodV`) |
| C46 | the whole parser, all sources that are accepted | numbers are counted with an arbitrary weight of tokens; one lemma per function of the parser that the weight of the numbers passed over is the weight of the numbers in the node returned (`okc`, Proofs/Cnt), tied with induction over the fuel (`knot_goodC`); the weight that is one for a single token gives the permutation |
| C47 | the whole parser and the conversion to S-expressions, pairs of sources | `bare` (Spec/Bare.lean) takes places and comments out of a tree; one lemma per function of the parser that it commutes with taking them out of its state (`N`, Proofs/Era/Base.lean), so that two runs on tokens that agree otherwise end alike; `tr` of a bare tree by induction over trees; C42 for the statement about texts |
| C48 | symbols, in any state of the outermost lexer; sources that are one symbol | `SymbolText` (Spec/Layout.lean) gives the names and what may stand behind them, from a table for the operators; `symbolName` case by case; the tree from C41 |
| C49 | the whole parser, outcomes that are errors | the rules of the layer for C44/C45 (Proofs/Val) also speak of the token of every error; with C07 and C36 the column in the excerpt |
| C50 | the Ruby method `tokens` (`Model/Ruby.lean`) | induction over the vector, with C02, C03, the literals of tokens (Proofs/TokLit), C19 and the end of parsing (C30) |
| C51 | character literals `?x` | the switch of the lexer on the text, with the escapes of `Spec/Quoted` |
| C52 | suffixes of numbers | the number theorems of C12–C14, the lexer's last token, evaluation of `parse_lit`, conversion |
| C53 | code in an interpolation | invariant of the stack of lexers (nested lexers have no last token), the tokens of C40 that do not need it |
| C36 | `code_line`, all errors of the parser | induction over the source; relation on runs closed under all parser functions |

## Trusted base

Lean's kernel and, for each theorem, only the axioms `propext`, `Classical.choice`, `Quot.sound`
(checked with `#print axioms`); no axioms of our own; the reading of the C++ source recorded in the comments of
`Verif/Model`; the assumptions on TM and libc listed above.

## Disagreements between code and properties (proved in Lean where listed in MANIFEST)

* C09 `$-` at the end of the source: the name contains a NUL byte (`C09_false`).
* C10 `defined?x` is lexed as a name, although the whole word is `defined?` (`C10_false`).
* C12 `0_17` is read as decimal 17 instead of octal 15 (`C12_false`).
* C13 large octal literals without `o` (`01777777777777777777777`) and large `0d0...` literals get a text that
  denotes another number (`C13_false`).
* C14 the `E` of an exponent becomes `e` (`C14_false`); harmless for `atof`, but not the literal statement.
* C15 `%q(\()` keeps the backslash: an opening delimiter cannot be written alone (`C15_false`).
* C19 `"\u{200000}"` aborts, `$9223372036854775808` overflows (`C19_false`); nothing else does.
* C20 `%W[#{1}#{2}]` opens a string twice and closes it once (`C20_false`).
* C27 `:'abc` and `%s(abc` are accepted unterminated (`C27_false`).
* C28 a string literal inside braces inside an interpolation does not end at its closing quote (`C28_false`).
* C29 `$N` from 2^63 on overflows a signed integer (`C29_overflow`, `C29_false`).
* C23 `<<-'A'` ends at the line `x A`, its text is `x`; a tab in front of the terminator becomes part of the text
  (`C23_false`).
* C24 `<<~` with two blank lines and nothing else yields three newlines (`C24_false`).
* C25 a literal or an escaped newline on the line of a heredoc goes on into the text of the heredoc, which is then read
  twice; so does the string around an interpolated section with a heredoc (`C25_false`).
* C37 `A::b.c=1`, `def f a=1` and `"#{a.b=1}"` contain the name tokens `c=`, `a=` and `b=` (`C37_false`).
* C30 parsing always ends, but on some sources by a failed assertion instead of an error: `a&.b, c = 1, 2` and
  `"\u{zz}"` (`C30_false`).
* C31 `2 ** 3 ** 2` is parsed as `(2 ** 3) ** 2`, `1 <=> 2 < 3` as `(1 <=> 2) < 3`, `1 || 2 .. 3` as `1 || (2 .. 3)`; the
  second `&&` of a chain is moved into the right operand (`C31_false`). `Spec.actual` is the table the code follows.
* C33 the parameters of `->(x) do … end` stay local variables after it, `x` is not one in `x = 1; class A < x`, and the body of
  `class << self` is not a scope of its own (`C33_false`). `Rules.actual` are the rules the code follows.
* C41: `a && b && c && d` is `(and a (and (and b c) d))`: `regroup` only looks at the first operator, so chains of four or more are not grouped to the right as chains of three are (an example in Props/Grammar.lean). The value is the same.
* C41 departures from Ruby's grammar, all in `C41_false`: `f(x = y = 1, 2)` assigns `[1, 2]`; `!5.abs` and `2 ** 3.abs` call the
  method on the result; `-(5)` is a literal; `not a && b` negates `a` only; `a and b if c`, `a if b if c` and `a rescue b if c` bind
  the last modifier to the last operand; `a ? b : c rescue d` rescues `c` only; `[*a || b]` splats `a` only; `a[1] { }`,
  `a = 1; a { }`, `(return)`, `if a then return else b end` and `case a; when 1 then b else c end` are syntax errors; the block of
  `private a do end` goes to `a`; `(a; b) while c` runs its body first; `break (1) + 2` adds to the jump. Not in the grammar but seen
  with the model: `while a do; b; end`, `rescue A then` and `'y'::K` are syntax errors. Default values of parameters are read above
  `<<`: `def f(x = 1 << 2)` and `|x: 1 < 2|` are syntax errors; in the default of `def f(x: x)` the name `x` is a call.
* C41, patterns: the names after `=>` and `*` do not become local variables (after `in [*a]`, `a` is a call), so the grammar asks
  that they are ones already. Not in the grammar but seen with the model: `[1 | 2]`, `in a: 1`, `A(1)` and `in 1, *` before a line
  end are syntax errors; `in 1, 2 | 3`, `1..2 | 3` and `a | b => x` are not grouped as in Ruby.
* C41, others seen with the model: `"#{1 2}"` is accepted (the statements of an interpolated section need no separator);
  `def x = a if b` is `def x = (a if b)`; the parameters of a lambda stay local variables after it, and the bodies of `class << a`
  and of `END` share the variables around them (these three are followed by the grammar of C41).
* C41 leaves out `rescue` in the body of a method or block: `parse_body` with rescue clauses does not undo its entry on the stack of
  call depths, so `f def g; 1; rescue; 2; end` makes a later `foo do |x| x end` a syntax error.
* C42 a carriage return is no white space: `a\r\nb` and `a # c\r\nb` give an Invalid token (`C42_carriage_return`), so
  sources with CRLF line ends are rejected.
* C48 `:a==b`, `:a=~b` and `:a!=b` are read as `:a=` or `:a!` and a rest, `:a?>b` as `:a` and the character `?>`, `:!@` as the symbol
  `!@` (`C48_false`).
* C44 `f(1) += 2`, `a.b(1) *= 2` and `f(&b) |= 1` are accepted, but converting their trees fails the assertion
  `args().is_empty()` of `OpAssignAccessorNode::transform` (`C44_refuted`). Nothing else makes a conversion fail.
* C36 the line quoted in a message is the line of the current token, the number reported is that of the offending one;
  in `[\n1] += 2` they differ (`C36_false`). Thirteen message texts report a token that need not be the current one.

* C50: the messages of `tokens` for unterminated literals count lines from 0, the others of `tokens` and those of `parse`
  from 1 (`C50_lines_false`): src/token.cpp:15-20 uses `m_line`, :9-13 `m_line + 1`.
* C51: `?é` is the string of the first byte of the character, followed by a name made of the rest; `?\` at the end of a line
  is an empty string; `x ?ab : c` is read as the string `a` and the name `b` (`C51_false`): src/lexer.cpp:519-536 takes one
  byte and does not look behind it.
* C52: `3ri` is converted to `Complex(0, 3)`, without a rational number (`C52_rational_false`, for every number):
  include/natalie_parser/node/complex_node.hpp:38-40 calls `transform_number` of the rational node, which does not call
  `make_rational_number`. The tests do not see it because Ruby's `==` holds between the two.
* C52: in an interpolation a suffix is read as a name, `"#{3i}"` has the statements `3` and `i`
  (`C52_interpolation_false`, for every source `C53_suffix_false`): only the outermost lexer sets `m_last_token` (src/lexer.cpp:53).
* C53: for the same reason the code of an interpolation has no division, a `/` there always begins a regular expression
  (`C53_division_false`), and `a:` is no key (`C53_key_false`; both for every source and position). `"#{6/2}"` and `"#{f(a: 1)}"` are syntax
  errors, and `"#{a / b / c}"` has a regular expression instead of two divisions (`C53_false`). Interpolations of regular
  expressions copy the last token in front of the regular expression, they are not covered.

## Checking the model against the project's tests

`conformance/` translates the token expectations of /repo/test/lexer_test.rb into calls of the model; 358 of 359
agree. `conformance/parser/` replays the expectations of /repo/test/parser_test.rb: 1060 agree, the rest differ only in
representation. They are tests of the model, no part of any proof.
