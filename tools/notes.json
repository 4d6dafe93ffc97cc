{
 "C116": {
  "status": "partial",
  "note": "The English statement is false of the code: C116_interference is a witness. Proved when the chains that contribute for the same helicities have the same helicity of the resonance and of its decay products (CommonHelicities)."
 },
 "C123": {
  "status": "partial",
  "note": "The English statement is false of filter_min_ls for iterators: C123_filter_fails. Proved for sequences, for to_three_body_decay and convert_transitions, and where filter_min_ls raises ValueError for the node IDs."
 },
 "C126": {
  "status": "partial",
  "note": "The English statement is false of the code: C126_alone_fails (the LaTeX of a resonance may be part of that of another one), C126_exception (couplings stay zero if the call raises). C126_contains says what is computed in all cases; C126_alone_partial is the statement where no other LaTeX contains the text."
 }
}