{
"C03": {
"status": "proved",
"note": ""
},
"C33": {
"status": "proved",
"note": ""
},
"C18": {
"status": "partial",
"note": "Full claim C18_full is false of the code (C18_refuted): \\b decodes to U+0007 and surrogate pairs with payload bit 16 set lose 0x10000. Proved: what is decoded for every item, and that decoding agrees with RFC 8259 exactly when no item is one of those."
},
"C20": {
"status": "partial",
"note": "Full claim C20_full is false of the code (C20_refuted, C20_not_transitive): JSON source against raw text also compares JSON lengths. Proved: the exact meaning of ==, soundness, reflexivity, symmetry, and the full claim for parsed strings."
},
"C22": {
"status": "partial",
"note": "Full claim C22_full is false of the code (C22_refuted). Proved: the exact condition under which cmp and == agree (C22_exact_partial); == implies Equal always; agreement for parsed strings."
},
"C23": {
"status": "partial",
"note": "Full claim C23_full is false of the code for hashers sensitive to how bytes are split into write calls (C23_refuted). Proved for every hasher that is not, and, for equal strings, the exact condition under which every hasher agrees (C23_exact_partial)."
},
"C24": {
"status": "partial",
"note": "Full claim C24_full is false of the code (C24_refuted): most control characters are rendered with their \\u digits in the wrong order. Proved: the round trip holds exactly for texts of Renderable characters."
},
"C25": {
"status": "partial",
"note": "Full claim C25_full is false of the code (C25_refuted): U+0080..U+00FF are counted as one byte. Proved: the text is kept always, the exact value of each length, and the exact condition under which each is right."
},
"C47": {
"status": "partial",
"note": "Full claim C47_full is false of the code (C47_refuted). Proved: the lower bound always; both bounds for strings kept as JSON source; the exact condition for converted text, for a fresh iterator (C47_exact_partial) and after any number of calls of next (C47_exact_everywhere_partial)."
},
"C48": {
"status": "partial",
"note": "Full claim C48_full is false of the code (C48_refuted). Proved: the exact condition of each panic (C48_exact_partial); no panic up to isize::MAX/12 bytes, and for all texts that need no escapes."
},
"C49": {
"status": "partial",
"note": "Full claim C49_full is false of the code (C49_refuted): a vertical tab is written as \\ul000. Proved: it holds if and only if strings kept as raw text contain only Renderable characters (C49_exact_partial)."
},
"C60": {
"status": "partial",
"note": "Full claim C60_full is false of the code (C60_refuted): ExpectedDigit and ExpectedDecimalDigit print the same text. Proved: messages are equal exactly when offset and kind are equal or both kinds are one of these two."
}
}