The expectations of `/repo/test/parser_test.rb` replayed on the model (a test of the model, not a proof).

`chunks.py` cuts the test file into small Ruby sources. `val.lean.txt` parses each of them with the model itself, finds
the calls `expect(parse(…)).must_equal …`, `must_raise` and `expect_raise_with_message`, runs the model on the quoted
source and compares the S-expression or the message with what the test expects.

    python3 chunks.py && cp val.lean.txt /tmp/val.lean
    cd /verif/lean && lake env lean --run /tmp/val.lean /root/val/c/*.rb

Result: 1060 agree. The 10 reported differences are differences of representation only (`Complex(0, 3)` against
`Complex(0, Rational(3, 1))`, `1.1r`, `Regexp.new(…)`, and a test that passes its own file name).
