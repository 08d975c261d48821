{
 "f01": [
  "added C63_escape_text: C30 and C55 said which escaped forms are identifiers, but no theorem said which texts are left alone"
 ],
 "f02": [
  "added C63_escape_text: C30 and C55 said which escaped forms are identifiers, but no theorem said which texts are left alone"
 ],
 "f04": [
  "added C63_escape_text: C30 and C55 said which escaped forms are identifiers, but no theorem said which texts are left alone"
 ],
 "f05": [
  "added C63_escape_text: C30 and C55 said which escaped forms are identifiers, but no theorem said which texts are left alone"
 ],
 "t06": [
  "added C52_message, C52_names_injective: C52_expected only said that the message is unambiguous, not which name each token has"
 ],
 "sv01": [
  "C41_names, C35_generated_name: the statements named the generated names by the model's own function; now by a specification (anon and a decimal numeral)"
 ],
 "sv02": [
  "C52_message, C52_quote: quoting was specified for plain ASCII only; now for every text, and numerals by a specification"
 ],
 "h14": [
  "added C49_read: C49 was stated for the analysis of a tree, not for Read"
 ]
}