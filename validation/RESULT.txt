301 of 301 outputs are equal to the expected ones
301 of 301: tokens and comments are leaves (Parsed)
296 of 301: follows the grammar (C43 C49 C54 C56 C57)
227 of 301: and has no comments
254 of 301: or has comments between members only
254 of 301: and C51 C52 apply
253 of 301: and C55 applies
251 of 301: and C58 applies
253 of 301: and C59 applies
226 of 301: has no comments and C61 applies (tight = allowed)
217 of 301: has no comments and C61 applies (no tight =)
outside of the grammar: prettier80_LoopClass, prettier80_anno3, prettier80_soql19, prettier80_soql_remove_bracket, prettier80_while1
301 of 301 expected outputs are left unchanged
