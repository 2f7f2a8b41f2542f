{"id": "C01", "title": "Chi codes round-trip", "statement": "Building a chi from (suit, lowest number, position of the called tile, red flag) and reading it back with pattern_chi returns the same four values; the two tiles shown from hand and the called tile are one copy each of the three consecutive kinds, the called one is at the requested position, the red five is among them iff the flag was set, the caller's source seat is the previous player, and the object is recognised as a chi and nothing else.", "quantifier": "every suit 0-2, lowest number 0-6, position 0-2, red flag consistent with the run containing the five", "why_tests_cant": "the tests check three literal melds; the claim ranges over every constructible chi", "anchors": ["MahjongAI/draw.py:Naki.from_chi_info", "MahjongAI/draw.py:Naki.pattern_chi", "MahjongAI/draw.py:Naki.is_chi"]}
{"id": "C02", "title": "Pon codes round-trip", "statement": "Building a pon from (kind, which, red flag, source seat) and reading it back with pattern_pon returns the suit and number of that kind, the same which and red flag, and from_who equals the source seat modulo 4; the three tiles are three distinct copies of the kind.", "quantifier": "every kind 0-33, which in {0,1}, every source seat (any natural number), red flag only on a suited five", "why_tests_cant": "four literals are tested; seats and kinds range over everything", "anchors": ["MahjongAI/draw.py:Naki.from_pon_info", "MahjongAI/draw.py:Naki.pattern_pon"]}
{"id": "C03", "title": "Kakan, minkan and ankan codes round-trip", "statement": "Building an added, open or closed kan and reading it back with the matching pattern_ function returns the kind, the which value and (open kan) the source seat; the tiles reported are the right number of distinct copies of the kind, and the object is recognised as that kind of meld and no other (an open kan needs a non-zero source seat).", "quantifier": "every kind 0-33, which in {0,1}, every source seat", "why_tests_cant": "ten literals are tested", "anchors": ["MahjongAI/draw.py:Naki.from_kakan_info", "MahjongAI/draw.py:Naki.from_minkan_info", "MahjongAI/draw.py:Naki.from_ankan_info", "MahjongAI/draw.py:Naki.pattern_kakan", "MahjongAI/draw.py:Naki.pattern_minkan", "MahjongAI/draw.py:Naki.pattern_ankan"]}
{"id": "C04", "title": "Meld codes are classified exactly once or rejected", "statement": "Every non-negative meld code is exactly one of chi, pon, kakan, minkan, ankan according to is_*(), or else Naki(code) raises ValueError.", "quantifier": "every natural number used as a meld code", "why_tests_cant": "2^16 codes times arbitrary high bits; tests use generated codes only", "anchors": ["MahjongAI/draw.py:Naki.__init__", "MahjongAI/draw.py:Naki._clean", "MahjongAI/draw.py:Naki.is_chi", "MahjongAI/draw.py:Naki.is_pon", "MahjongAI/draw.py:Naki.is_kakan", "MahjongAI/draw.py:Naki.is_minkan", "MahjongAI/draw.py:Naki.is_ankan"]}
{"id": "C05", "title": "Tiles of a decoded meld are physically plausible", "statement": "For every accepted meld code, get_exposed returns distinct tiles with the right shape: two from hand plus one called, consecutive in one suit (chi) or of one kind (pon); one tile (kakan); three plus the called one (minkan) or four (ankan) of one kind; and all lie in 0-135 whenever the pattern field denotes one of the 21 runs per suit or 34 kinds.", "quantifier": "every natural number used as a meld code", "why_tests_cant": "codes come from external log files; no test covers the space", "anchors": ["MahjongAI/draw.py:Naki.get_exposed"]}
{"id": "C06", "title": "Canonicalisation is idempotent", "statement": "Cleaning an already canonical meld code changes nothing, and cleaning keeps the meld type, the tile kind(s), the red flag and the source seat.", "quantifier": "every natural number used as a meld code", "why_tests_cant": "tests check 15 generated codes only", "anchors": ["MahjongAI/draw.py:Naki._clean", "MahjongAI/draw.py:Naki._clean_chi", "MahjongAI/draw.py:Naki._clean_pon", "MahjongAI/draw.py:Naki._clean_kakan", "MahjongAI/draw.py:Naki._clean_minkan", "MahjongAI/draw.py:Naki._clean_ankan"]}
{"id": "C07", "title": "Generated codes are already canonical", "statement": "A meld built from info has a canonical code equal to its code (re-cleaning it is the identity), so it can be compared with the canonical code of a logged meld.", "quantifier": "every constructible chi, pon, kakan, minkan, ankan", "why_tests_cant": "tests check 15 literals; the open-kan constructor breaks it for ordinary kinds", "anchors": ["MahjongAI/draw.py:Naki.from_chi_info", "MahjongAI/draw.py:Naki.from_pon_info", "MahjongAI/draw.py:Naki.from_minkan_info", "MahjongAI/draw.py:Naki._clean"]}
{"id": "C08", "title": "Canonical codes identify melds", "statement": "Two logged codes for the same meld (same type, same kinds, same called position for a chi, same source, same role of the red five) get the same canonical code, and codes for different melds get different ones, so a logged call can be matched with the offered decision.", "quantifier": "every pair of well-formed logged codes", "why_tests_cant": "depends on which physical copies were used; tests never compare two encodings of one meld", "anchors": ["MahjongAI/draw.py:Naki._clean", "MahjongAI/draw.py:Naki.convenient_naki_code"]}
{"id": "C09", "title": "Own-turn meld action numbers are in range and unambiguous", "statement": "get_during_turn_filter_idx returns a number in [3,70] for every closed or added kan of a real kind, different kans (type, kind) get different numbers, and it raises for the other melds.", "quantifier": "every natural number used as a meld code", "why_tests_cant": "71-way action space; never tested", "anchors": ["MahjongAI/draw.py:Naki.get_during_turn_filter_idx"]}
{"id": "C10", "title": "Call action numbers are in range", "statement": "get_post_turn_filter_idx returns a number in [2,153] for every chi, pon or open kan of real kinds and raises for the other melds.", "quantifier": "every natural number used as a meld code", "why_tests_cant": "154-way action space; never tested", "anchors": ["MahjongAI/draw.py:Naki.get_post_turn_filter_idx"]}
{"id": "C11", "title": "Call action numbers are unambiguous", "statement": "Two calls with the same get_post_turn_filter_idx are the same action: same meld type, same kinds, same called position, same use of the red five.", "quantifier": "every pair of well-formed chi, pon, minkan codes", "why_tests_cant": "needs all pairs", "anchors": ["MahjongAI/draw.py:Naki.get_post_turn_filter_idx"]}
{"id": "C12", "title": "Discard tokens are decodable", "statement": "From a discard token the encoder's bit-field extraction recovers exactly the event class DISCARD, the player, the tile index and the tsumogiri flag; hence different discards get different tokens.", "quantifier": "every player 0-3, tile index 0-36, flag", "why_tests_cant": "592 combinations and the encoder's extraction live in different modules", "anchors": ["MahjongAI/process_xml.py:discard2idx", "MahjongAI/agents/transformer.py:Encoder.forward", "MahjongAI/agents/transformer_conv_ordered.py:Encoder.forward"]}
{"id": "C13", "title": "Meld, riichi and dora tokens are decodable", "statement": "From a meld, riichi or new-dora token the encoder's bit-field extraction recovers the event class, the player and the action number (or tile index); the action number always fits its 8-bit field.", "quantifier": "every player, every accepted meld code, every tile index", "why_tests_cant": "the meld code is external input", "anchors": ["MahjongAI/process_xml.py:naki2idx", "MahjongAI/process_xml.py:reach2idx", "MahjongAI/process_xml.py:new_dora2idx", "MahjongAI/agents/transformer.py:Encoder.forward"]}
{"id": "C14", "title": "Tokens never collide across event classes or with padding", "statement": "Tokens of discards, melds, riichi and dora events are pairwise different and never equal the padding value 0, and all are at most 2^17.", "quantifier": "every event of each class", "why_tests_cant": "cross product of all events", "anchors": ["MahjongAI/process_xml.py:discard2idx", "MahjongAI/process_xml.py:naki2idx", "MahjongAI/process_xml.py:reach2idx", "MahjongAI/process_xml.py:new_dora2idx", "MahjongAI/utils/constants.py:PAD_ID"]}
{"id": "C15", "title": "The type field of a token names the event type", "statement": "The 3-bit type field of a token equals the event type constant of the event that produced it (discard: DISCARD, meld: NAKI, riichi: RIICHI, dora: NEW_DORA).", "quantifier": "every event", "why_tests_cant": "a wrong constant is invisible to shape tests", "anchors": ["MahjongAI/process_xml.py:discard2idx", "MahjongAI/utils/constants.py:EventTypes"]}
{"id": "C16", "title": "Nobody is offered a call on their own discard", "statement": "decision_mask returns four lists, the discarder's list is empty, every decision in list p belongs to player p, is not marked executed, and is a chi, pon or open kan.", "quantifier": "every player, every hand contents, every discarded tile kind", "why_tests_cant": "hands range over all tensors", "anchors": ["MahjongAI/decision.py:decision_mask"]}
{"id": "C17", "title": "Calls point at the discarder and chi is only for the next seat", "statement": "Every offered call made by player p on player q's discard has source seat (q-p) mod 4, and a chi is offered only to the seat after the discarder.", "quantifier": "every player, every hand contents, every discarded kind", "why_tests_cant": "hands range over all tensors", "anchors": ["MahjongAI/decision.py:decision_mask"]}
{"id": "C18", "title": "Every offered pon or open kan is backed by the hand", "statement": "An offered pon (open kan) is of the discarded kind and its player holds at least two (three) copies of that kind.", "quantifier": "every player, hand contents, discarded kind", "why_tests_cant": "hands range over all tensors", "anchors": ["MahjongAI/decision.py:decision_mask"]}
{"id": "C19", "title": "Every offered chi takes the discarded tile and is backed by the hand", "statement": "In every offered chi the called tile is of the discarded kind and the player holds at least one tile of each of the two other kinds of the run.", "quantifier": "every player, hand contents, discarded kind", "why_tests_cant": "the error appears only for one branch with a red five in hand", "anchors": ["MahjongAI/decision.py:decision_mask", "MahjongAI/decision.py:_four_and_six_mask"]}
{"id": "C20", "title": "Every possible chi is offered", "statement": "If the seat after the discarder holds tiles of two kinds that complete a run with the discard, a chi of exactly that run, calling the discarded tile, is offered.", "quantifier": "every hand, every suited discard", "why_tests_cant": "all run positions and hands", "anchors": ["MahjongAI/decision.py:decision_mask"]}
{"id": "C21", "title": "Every possible pon and open kan is offered", "statement": "If a player other than the discarder holds at least two copies of the discarded kind a pon is offered, and if three copies an open kan is offered.", "quantifier": "every hand, every discard", "why_tests_cant": "depends on exact counts", "anchors": ["MahjongAI/decision.py:decision_mask"]}
{"id": "C22", "title": "A black-five alternative is offered only when a black five is held", "statement": "When a run can be completed with a five, the version without the red five is offered iff the player holds a non-red five, and the version with the red five iff the player holds the red five.", "quantifier": "every hand, every discard of a 3,4,6,7", "why_tests_cant": "the branch reads another tile's count", "anchors": ["MahjongAI/decision.py:_three_and_seven_mask", "MahjongAI/decision.py:_four_and_six_mask"]}
{"id": "C23", "title": "A logged call is recognised among the offers", "statement": "If a logged chi, pon or open kan is legal for the position, one of the decisions offered to the caller on that discard has the same canonical code (and so becomes the executed one).", "quantifier": "every legal logged call", "why_tests_cant": "needs the combination of decision generation and canonicalisation", "anchors": ["MahjongAI/decision.py:decision_mask", "MahjongAI/draw.py:Naki._clean", "MahjongAI/process_xml.py:process"]}
{"id": "C24", "title": "Ron is evaluated for the right players only", "statement": "evaluate_ron never produces a decision for the discarder or for a player who has that tile kind in the discard pool; any decision in slot p belongs to player p and is not executed; exactly the remaining players for whom the hand evaluator reports no error get a decision.", "quantifier": "every hand tensor, meld list, discard pool, flags, every hand evaluator", "why_tests_cant": "evaluator and inputs arbitrary", "anchors": ["MahjongAI/utils/agari.py:evaluate_ron"]}
{"id": "C25", "title": "Evaluation leaves the hands unchanged", "statement": "evaluate_ron and evaluate_tsumo leave every hand tensor exactly as it was.", "quantifier": "all inputs for which they return", "why_tests_cant": "temporary in-place edits", "anchors": ["MahjongAI/utils/agari.py:evaluate_ron", "MahjongAI/utils/agari.py:evaluate_tsumo"]}
{"id": "C26", "title": "Melds are handed to the evaluator with the right kinds", "statement": "The tile list given to the evaluator for a meld has the kinds of the meld's actual tiles (in order) and contains the red five of the suit iff the meld's own red flag says so; open/closed status matches (only a closed kan is not open).", "quantifier": "every well-formed meld code", "why_tests_cant": "every code", "anchors": ["MahjongAI/utils/agari.py:evaluate_ron", "MahjongAI/utils/agari.py:evaluate_tsumo"]}
{"id": "C27", "title": "Hand strings round-trip", "statement": "The four digit strings produced from a hand tensor contain digit d of suit s exactly as many times as the tensor counts that kind, in non-decreasing order; red slots 34-36 are ignored.", "quantifier": "every tensor of natural numbers", "why_tests_cant": "unbounded counts", "anchors": ["MahjongAI/utils/agari.py:hand_tensor2strs"]}
{"id": "C28", "title": "Rounds partition the event stream", "statement": "_get_rounds returns lists of events each starting with INIT and containing no other INIT, whose concatenation is exactly the document-order event stream without the five bookkeeping tags.", "quantifier": "every XML tree accepted", "why_tests_cant": "arbitrary trees", "anchors": ["MahjongAI/process_xml.py:_get_rounds"]}
{"id": "C29", "title": "Bad documents are rejected with the documented error", "statement": "A document is rejected with ValueError iff it has not exactly one GO child of the root with an integer type; otherwise with AttributeError iff its first non-bookkeeping event is neither INIT nor BYE; otherwise with InvalidGameException iff it contains BYE anywhere.", "quantifier": "every XML tree", "why_tests_cant": "arbitrary trees", "anchors": ["MahjongAI/process_xml.py:_get_rounds"]}
{"id": "C30", "title": "Only standard four-player red-five human games are processed", "statement": "process returns a result only if the game type has the human bit set and the no-red, kansaki and three-player bits clear; each of the other cases raises InvalidGameException before any round is read.", "quantifier": "every game type integer, every log", "why_tests_cant": "all bit patterns", "anchors": ["MahjongAI/process_xml.py:process", "MahjongAI/gameinfo.py:GameInfo"]}
{"id": "C31", "title": "Game type fields are independent bits", "statement": "against_human, no_red, kansaki, tonnan, three_players and fast each return exactly their own bit of the game type, n_rounds is 4 or 8 according to tonnan, and level is determined by bits 5 and 7 only.", "quantifier": "every natural number game type", "why_tests_cant": "all bit patterns", "anchors": ["MahjongAI/gameinfo.py:GameInfo"]}
{"id": "C32", "title": "Remaining dealerships add up", "statement": "parent_rounds_remaining[i] is the number of rounds j with current <= j < total and j mod 4 = i, and the four entries sum to rounds_remaining.", "quantifier": "every current round up to the total; the sum for every integer", "why_tests_cant": "all rounds", "anchors": ["MahjongAI/gameinfo.py:RoundInfo", "MahjongAI/process_xml.py:process"]}
{"id": "C33", "title": "Hand tensors always equal the concealed tiles", "statement": "After every processed event, for every player and kind, hand_tensors[p][kind] is the number of tiles of that kind the player currently holds concealed according to the per-tile table, slots 34-36 count the red fives held, and the per-tile table contains only 0 and 1.", "quantifier": "every log prefix that is processed without error", "why_tests_cant": "all event histories", "anchors": ["MahjongAI/process_xml.py:process"]}
{"id": "C34", "title": "Concealed tiles are exactly initial hand plus draws minus discards and exposed tiles", "statement": "After every processed event the per-tile table of player p contains tile t iff t was dealt to or drawn by p more recently than p discarded or exposed it.", "quantifier": "every log prefix processed without error", "why_tests_cant": "all event histories", "anchors": ["MahjongAI/process_xml.py:process"]}
{"id": "C35", "title": "The player who discards is the one who just drew or called", "statement": "In any successfully processed round every discard is by the player of the most recent draw, chi or pon, provided closed and added kans are made by the player who has just drawn; a discard of a real tile by anybody else raises AssertionError.", "quantifier": "every accepted log", "why_tests_cant": "all event histories", "anchors": ["MahjongAI/process_xml.py:process"]}
{"id": "C36", "title": "Unseen-tile counter is exact", "statement": "remaining_tiles[k] for every kind k < 34 equals 4 minus the tiles of kind k dealt, drawn or turned as dora indicator so far; slots 34-36 equal 1 minus the red fives seen that way.", "quantifier": "every log prefix processed without error", "why_tests_cant": "all histories", "anchors": ["MahjongAI/process_xml.py:process", "MahjongAI/utils/constants.py:REMAINING_TILES"]}
{"id": "C37", "title": "Per-player unseen-tile counter is exact", "statement": "remaining_tiles_pov[p][k] equals the initial count minus the tiles of that slot that player p has seen: own deal and draws, indicators, other players' discards, tiles other players expose in calls.", "quantifier": "every log prefix processed without error", "why_tests_cant": "all histories", "anchors": ["MahjongAI/process_xml.py:process"]}
{"id": "C38", "title": "Remaining draws counter is exact", "statement": "remaining_tsumo equals 70 minus the number of tiles drawn so far.", "quantifier": "every log prefix processed without error", "why_tests_cant": "needs histories with kans", "anchors": ["MahjongAI/process_xml.py:process", "MahjongAI/utils/constants.py:REMAINING_TSUMO"]}
{"id": "C39", "title": "Riichi sticks conserve points", "statement": "At every half-turn, sum(scores) + 10*kyotaku equals its value at the start of the round, and each accepted riichi moves exactly 10 from the declarer to the table.", "quantifier": "every accepted log", "why_tests_cant": "all histories", "anchors": ["MahjongAI/process_xml.py:process"]}
{"id": "C40", "title": "Riichi is permanent and double riichi implies riichi", "statement": "Once reaches[p] is 1 it stays 1 for the rest of the round; double_reaches[p]=1 implies reaches[p]=1; entries are only 0 or 1.", "quantifier": "every accepted log", "why_tests_cant": "all histories", "anchors": ["MahjongAI/process_xml.py:process"]}
{"id": "C41", "title": "The closed-hand flag is exact", "statement": "is_menzen[p] is 0 iff player p made a call whose code has a non-zero source seat earlier in the round.", "quantifier": "every accepted log", "why_tests_cant": "all histories", "anchors": ["MahjongAI/process_xml.py:process"]}
{"id": "C42", "title": "Draws and discards alternate properly", "statement": "In a processed round two draws are always separated by a discard or a kan, and every discard is preceded by a draw or a chi/pon with no other discard in between.", "quantifier": "every accepted log", "why_tests_cant": "all histories", "anchors": ["MahjongAI/process_xml.py:process"]}
{"id": "C43", "title": "One half-turn per draw, two per discard, one per added kan", "statement": "The half-turn list of a round contains exactly one during-turn per draw event, one discard-turn immediately followed by one post-turn of the same player and position per discard event, and one post-turn per added kan, in log order.", "quantifier": "every accepted log", "why_tests_cant": "all histories", "anchors": ["MahjongAI/process_xml.py:process", "MahjongAI/turn.py"]}
{"id": "C44", "title": "The token stream is the public event sequence", "statement": "The token list of a round is, in order, exactly one token per discard, call, accepted riichi and dora event of the log, and draws contribute none.", "quantifier": "every accepted log", "why_tests_cant": "all histories", "anchors": ["MahjongAI/process_xml.py:process"]}
{"id": "C45", "title": "Half-turn positions are monotone and in range", "statement": "encoding_idx is non-decreasing along the half-turns of a round and never exceeds the token count of the round.", "quantifier": "every accepted log", "why_tests_cant": "all histories", "anchors": ["MahjongAI/process_xml.py:process"]}
{"id": "C46", "title": "A call decision can see the discard it is about", "statement": "The token prefix selected by a post-turn's encoding_idx contains the token of the discard (or added kan) that the post-turn is about.", "quantifier": "every accepted log", "why_tests_cant": "off-by-one ordering of append and snapshot", "anchors": ["MahjongAI/process_xml.py:process"]}
{"id": "C47", "title": "A half-turn records the position as it was", "statement": "The state object attached to a half-turn, read after process returns, shows the player's hand, unseen-tile counts, closed flags and melds as they were at that half-turn, not as they became later.", "quantifier": "every accepted log and every half-turn", "why_tests_cant": "aliasing: needs two different continuations", "anchors": ["MahjongAI/process_xml.py:process", "MahjongAI/state.py:StateObject"]}
{"id": "C48", "title": "Snapshot fields do not depend on the future", "statement": "The copied fields of a half-turn (scores, riichi flags, discards, dora, counters, position, offered decisions) are the same for every continuation of the log after the event that resolves the half-turn.", "quantifier": "every pair of logs with a common prefix", "why_tests_cant": "two-run property", "anchors": ["MahjongAI/process_xml.py:process", "MahjongAI/state.py:StateObject"]}
{"id": "C49", "title": "A winning decision that was taken is marked executed", "statement": "If the round ends in a win that was offered, the corresponding agari decision is marked executed.", "quantifier": "every accepted log", "why_tests_cant": "never set anywhere", "anchors": ["MahjongAI/process_xml.py:process"]}
{"id": "C50", "title": "A call marks only the caller's matching decision", "statement": "Processing a call marks executed only decisions of the current half-turn with the same canonical code, at most one per player list, and changes nothing else in any half-turn; on a discard at most one player's list can contain such a decision.", "quantifier": "every accepted log", "why_tests_cant": "all histories", "anchors": ["MahjongAI/process_xml.py:process"]}
{"id": "C51", "title": "Ippatsu is taken into account", "statement": "The hand evaluator is told about ippatsu for a player who declared riichi and wins within one uninterrupted go-around.", "quantifier": "every accepted log, every evaluator", "why_tests_cant": "non-interference over evaluators", "anchors": ["MahjongAI/process_xml.py:process", "MahjongAI/utils/agari.py:evaluate_ron", "MahjongAI/utils/agari.py:evaluate_tsumo"]}
{"id": "C52", "title": "Tenhou and chiihou are considered only at the very start", "statement": "The tenhou flag is passed to the evaluator only for the first draw of a round, and the chiihou flag never for a fifth or later draw or after an open call.", "quantifier": "every accepted log, every evaluator", "why_tests_cant": "all histories", "anchors": ["MahjongAI/process_xml.py:process"]}
{"id": "C53", "title": "Seat wind given to the evaluator is the winner's", "statement": "The player_wind in the evaluator's configuration depends on the player whose hand is evaluated.", "quantifier": "every accepted log", "why_tests_cant": "needs comparing queries of different players", "anchors": ["MahjongAI/process_xml.py:process", "MahjongAI/gameinfo.py:RoundInfo"]}
{"id": "C54", "title": "A round must end with a result", "statement": "A round without AGARI/RYUUKYOKU, or with any other event after the first of them, raises AssertionError; unknown event tags raise ValueError.", "quantifier": "every round", "why_tests_cant": "all event lists", "anchors": ["MahjongAI/process_xml.py:process"]}
{"id": "C55", "title": "Rounds are processed independently", "statement": "process returns one half-turn list and one token list per round, each depending only on the game type and that round's events; if a round raises, process raises.", "quantifier": "every log", "why_tests_cant": "two-run property", "anchors": ["MahjongAI/process_xml.py:process"]}
{"id": "C56", "title": "Physically impossible logs are rejected", "statement": "A log in which a tile is drawn although another player holds it is rejected.", "quantifier": "every log", "why_tests_cant": "needs adversarial logs", "anchors": ["MahjongAI/process_xml.py:process"]}
{"id": "C57", "title": "Full hands include melded tiles", "statement": "The hand used for win evaluation equals the concealed hand plus all tiles exposed or called in melds so far, per kind.", "quantifier": "every log prefix processed without error", "why_tests_cant": "all histories", "anchors": ["MahjongAI/process_xml.py:process"]}
{"id": "C58", "title": "No future tokens in a training row", "statement": "Every row's token vector has length 150, its first encoding_idx entries are the round's tokens and the rest is 0.", "quantifier": "every round, every half-turn with encoding_idx < 150, any number of tokens", "why_tests_cant": "sequence lengths beyond 150 are never tested", "anchors": ["MahjongAI/agents/transformer.py:TransformerTensorProcessor.build_tensors", "MahjongAI/agents/transformer.py:TransformerTensorProcessor._build_discard_tensor"]}
{"id": "C59", "title": "The recorded discard is an allowed action", "statement": "In every discard row produced from a processed log the label is allowed by the row's mask.", "quantifier": "every accepted log", "why_tests_cant": "needs aliasing across the round", "anchors": ["MahjongAI/agents/transformer.py:TransformerTensorProcessor._build_discard_tensor", "MahjongAI/process_xml.py:process"]}
{"id": "C60", "title": "Own-turn labels say what the player did", "statement": "For an own-turn row the label is 0 when nothing was executed, 1 for a win, 2 for riichi, and the kan's action number for a kan; and the label is allowed by the mask.", "quantifier": "every during-turn with at least one decision", "why_tests_cant": "shadowed loop variable", "anchors": ["MahjongAI/agents/transformer.py:TransformerTensorProcessor._build_during_tensor"]}
{"id": "C61", "title": "Own-turn masks are exact", "statement": "The own-turn mask allows pass, win iff a win was offered, riichi iff riichi was offered, and exactly the action numbers of the offered kans; it allows at least two actions; turns without decisions give no row.", "quantifier": "every during-turn", "why_tests_cant": "all decision lists", "anchors": ["MahjongAI/agents/transformer.py:TransformerTensorProcessor._build_during_tensor"]}
{"id": "C62", "title": "Call rows are exact", "statement": "For a post-turn the rows are, in seat order after the acting player, the players with at least one decision up to and including the first who executed one; each mask allows pass plus exactly the offered actions (at least two), and each label is 0 or the last executed offer and is allowed by the mask.", "quantifier": "every post-turn", "why_tests_cant": "all decision lists", "anchors": ["MahjongAI/agents/transformer.py:TransformerTensorProcessor._build_post_tensor"]}
{"id": "C63", "title": "A call row shows the deciding player's hand", "statement": "The hand channel of a call row is the hand of the player who decides.", "quantifier": "every accepted log", "why_tests_cant": "needs comparing rows of two players", "anchors": ["MahjongAI/agents/transformer.py:TransformerTensorProcessor._build_post_tensor"]}
{"id": "C64", "title": "Batches contain every row exactly once, in order", "statement": "prepare_batches returns for each head the concatenation over games and rounds of that round's rows, in order; the rows of the three heads come from the three kinds of half-turns.", "quantifier": "every batch", "why_tests_cant": "all batches", "anchors": ["MahjongAI/agents/transformer.py:TransformerTensorProcessor.prepare_batches", "MahjongAI/agents/transformer.py:TransformerTensorProcessor.stack_batches"]}
{"id": "C65", "title": "Count planes are lossless", "statement": "The 4-wide threshold encoding of a count used by the convolutional models determines the count for counts 0-4 and saturates outside.", "quantifier": "every integer count", "why_tests_cant": "all counts", "anchors": ["MahjongAI/agents/transformer_conv.py:TransformerTensorProcessor._convert_state_obj_to_tensors"]}
{"id": "C66", "title": "The ordered model sees discards relative to the player", "statement": "In the ordered model channel 2+i of the state tensor is the discard pool of seat (player+i) mod 4.", "quantifier": "every player, every pool", "why_tests_cant": "all pools", "anchors": ["MahjongAI/agents/transformer_conv_ordered.py:TransformerTensorProcessor._convert_state_obj_to_tensors"]}
{"id": "C67", "title": "The basic encoder sees who acted", "statement": "In the basic encoder two events that differ only in the acting player can get different embeddings for some embedding tables.", "quantifier": "all embedding tables, all tokens", "why_tests_cant": "universally quantified over weights", "anchors": ["MahjongAI/agents/transformer.py:Encoder.forward", "MahjongAI/agents/transformer_conv.py:Encoder.forward", "MahjongAI/agents/transformer_conv_large.py:Encoder.forward"]}
{"id": "C68", "title": "The ordered encoder is relative to the viewing player", "statement": "In the ordered encoder the embedding of an event depends on the acting player p and the viewing player v only through (p - v) mod 4, so shifting both leaves it unchanged.", "quantifier": "all tables, tokens, players", "why_tests_cant": "universally quantified over weights", "anchors": ["MahjongAI/agents/transformer_conv_ordered.py:Encoder.forward"]}
{"id": "C69", "title": "Padding contributes nothing in the ordered encoder", "statement": "A padding token (0) has the zero embedding in the ordered encoder, and every lookup index is inside its table.", "quantifier": "all tables, all token values a 64-bit integer can take", "why_tests_cant": "universally quantified over weights", "anchors": ["MahjongAI/agents/transformer_conv_ordered.py:Encoder.forward"]}
{"id": "C70", "title": "An epoch visits every valid file exactly once, in order", "statement": "Iterating the loader from a fresh or reset state yields batches whose concatenation is exactly the results of the files that process successfully, in directory order; files with invalid games or other non-assertion errors are skipped.", "quantifier": "every directory, batch size >= 1, every outcome per file", "why_tests_cant": "all file lists", "anchors": ["MahjongAI/utils/dataloader.py:DataLoader.__next__"]}
{"id": "C71", "title": "Batches are full except possibly the last", "statement": "Every batch has at most batch_size games and only the last can have fewer; iteration terminates.", "quantifier": "every directory, batch size >= 1", "why_tests_cant": "all file lists", "anchors": ["MahjongAI/utils/dataloader.py:DataLoader.__next__"]}
{"id": "C72", "title": "An assertion failure stops the run", "statement": "If a file raises AssertionError the loader exits the program and yields no later batch.", "quantifier": "every directory", "why_tests_cant": "all file lists", "anchors": ["MahjongAI/utils/dataloader.py:DataLoader.__next__"]}
{"id": "C73", "title": "The newest checkpoint of the right model is resumed", "statement": "find_latest_checkpoint returns the file with the highest iteration number among this model's checkpoints, ignoring other files, independent of directory listing order; (0, None) if there is none.", "quantifier": "every set of file names, every listing order", "why_tests_cant": "all directories", "anchors": ["MahjongAI/supervised_learning.py:find_latest_checkpoint"]}
{"id": "C74", "title": "Resuming never repeats or overwrites an iteration", "statement": "Over any sequence of training runs, each interrupted at any point, the saved iteration numbers are 0,1,2,... without gap or repetition, and the shard used in iteration i is i mod 8.", "quantifier": "every sequence of runs and crash points", "why_tests_cant": "all crash points", "anchors": ["MahjongAI/supervised_learning.py:train", "MahjongAI/supervised_learning.py:find_latest_checkpoint"]}
{"id": "C75", "title": "The learning rate stays within bounds", "statement": "The schedule factor is in [0,1] at every step, rises linearly from 0 to 1 during warm-up, decreases from 1 to 0 between step 1000 and 1000000.", "quantifier": "every step", "why_tests_cant": "all steps, real arithmetic", "anchors": ["MahjongAI/supervised_learning.py:train"]}
{"id": "C76", "title": "The shanten solver restores the hand", "statement": "After solve, and after every recursive call of solve_normal, the hand tensor and all counters are exactly what they were before; only best_shanten may have decreased.", "quantifier": "every tensor of integers, every state of the counters", "why_tests_cant": "deep mutual in-place edits", "anchors": ["MahjongAI/utils/shanten.py:ShantenSolver"]}
{"id": "C77", "title": "The shanten search terminates", "statement": "solve terminates on every tensor of integers, with a recursion depth of at most 28 plus the number of suited tiles, and the result does not depend on the limit.", "quantifier": "every tensor of integers", "why_tests_cant": "recursion on mutable state", "anchors": ["MahjongAI/utils/shanten.py:ShantenSolver.solve_normal"]}
{"id": "C78", "title": "The shanten value is achieved by a decomposition", "statement": "The normal-hand value is the value of some actual decomposition of the hand into triplets, runs, pairs, partial runs and single tiles.", "quantifier": "every hand with counts 0-4 and at most one red five per suit", "why_tests_cant": "needs witness extraction", "anchors": ["MahjongAI/utils/shanten.py:ShantenSolver.solve_normal"]}
{"id": "C79", "title": "Value -1 means complete", "statement": "A hand of 3k+2 suited and honour tiles (k<=4, the rest called) gets value -1 from the normal search exactly if it splits into k sets and a pair, and never gets less.", "quantifier": "every hand with counts 0-4 and no red fives", "why_tests_cant": "all complete hands", "anchors": ["MahjongAI/utils/shanten.py:ShantenSolver.solve_normal"]}
{"id": "C80", "title": "Kokushi and chiitoitsu distances are correct", "statement": "solve_kokushi uses 13 minus distinct terminals/honours minus one if any is paired; solve_chitoitsu uses 6 minus the number of kinds held at least twice.", "quantifier": "every hand", "why_tests_cant": "all hands", "anchors": ["MahjongAI/utils/shanten.py:ShantenSolver.solve_kokushi", "MahjongAI/utils/shanten.py:ShantenSolver.solve_chitoitsu", "MahjongAI/utils/constants.py:YAOCHU_TENSOR"]}
{"id": "C81", "title": "The ordered encoder can tell different events apart", "statement": "There are embedding tables for which events with different tokens get different embeddings, at every position and for every viewing player.", "quantifier": "all pairs of events on real tiles, all players, all positions", "why_tests_cant": "existence over weights, all token pairs", "anchors": ["MahjongAI/agents/transformer_conv_ordered.py:Encoder.forward"]}
{"id": "C82", "title": "The loader never hands an empty batch to the model", "statement": "Every batch yielded by the loader contains at least one game, and an iteration over a directory with at least one valid file does not raise because of files that are skipped.", "quantifier": "every directory, every batch size", "why_tests_cant": "all file lists", "anchors": ["MahjongAI/utils/dataloader.py:DataLoader.__next__", "MahjongAI/supervised_learning.py:train", "MahjongAI/agents/transformer.py:TransformerTensorProcessor.stack_batches"]}
{"id": "C83", "title": "One optimiser step per loss, validation every 1000 games", "statement": "An iteration makes one optimiser and scheduler step for each loss the model yields, and validates at the first batch and then after every 1000 games, for all batch sizes in use.", "quantifier": "every sequence of batches, every outcome of the model", "why_tests_cant": "all sequences", "anchors": ["MahjongAI/supervised_learning.py:train"]}
{"id": "C84", "title": "Validation always uses the same games", "statement": "Every validation uses the first batches of the validation directory, a number that depends only on the batch size and the size of the directory; if they give no loss ZeroDivisionError is raised.", "quantifier": "every validation directory and batch size", "why_tests_cant": "all sequences", "anchors": ["MahjongAI/supervised_learning.py:estimate_loss"]}
{"id": "C85", "title": "Resuming continues the learning-rate schedule", "statement": "The factors used by the optimiser steps of a resumed training are the same as in an uninterrupted one.", "quantifier": "every split of the steps into runs", "why_tests_cant": "needs whole-history comparison, real arithmetic", "anchors": ["MahjongAI/supervised_learning.py:train"]}
{"id": "C86", "title": "The masked loss does what masking is for", "statement": "The loss is non-negative, actions that are not allowed have probability at most exp(-10^9 - L) for L the logit of any allowed action, and a label that is not allowed costs at least 10^9 + L.", "quantifier": "all masks, all real logits", "why_tests_cant": "all real vectors", "anchors": ["MahjongAI/agents/transformer.py:Decoder.forward", "MahjongAI/agents/transformer_conv_ordered.py:Decoder.forward"]}
{"id": "C87", "title": "The fixed encoding tables separate their arguments", "statement": "Different positions have different rows of the position table, the four players have different rows of the player table, and all entries are in [-1,1].", "quantifier": "all positions, all embedding sizes, real arithmetic", "why_tests_cant": "all positions; irrationality of pi", "anchors": ["MahjongAI/agents/transformer.py:Encoder._get_position_encoding", "MahjongAI/agents/transformer.py:Encoder._get_player_encoding", "MahjongAI/agents/transformer_conv_ordered.py:Encoder._get_position_encoding", "MahjongAI/agents/transformer_conv_ordered.py:Encoder._get_player_encoding"]}
{"id": "C88", "title": "Value 0 means one tile from complete", "statement": "A hand of 3k+1 tiles (k<=4) gets value 0 from the normal search exactly if some tile completes it to k sets and a pair (a fifth tile of a kind counted as possible), and never gets less.", "quantifier": "every hand with counts 0-4 and no red fives", "why_tests_cant": "all waiting hands", "anchors": ["MahjongAI/utils/shanten.py:ShantenSolver.solve_normal"]}
{"id": "C89", "title": "A hand that only a fifth tile completes is not waiting", "statement": "If no tile of which fewer than four are held completes a hand of 3k+1 tiles, its value is at least 1.", "quantifier": "every hand with counts 0-4", "why_tests_cant": "all waiting hands", "anchors": ["MahjongAI/utils/shanten.py:ShantenSolver.solve_normal"]}
{"id": "C90", "title": "Red fives do not change the shanten value", "statement": "Replacing a red five by an ordinary five of the same suit does not change the value.", "quantifier": "every hand", "why_tests_cant": "all hands with red fives", "anchors": ["MahjongAI/utils/shanten.py:ShantenSolver._init"]}
{"id": "C91", "title": "The shanten value is the smallest over all decompositions", "statement": "No decomposition of the hand into blocks has a smaller distance than the value of the normal search; in particular a discard never lowers the value.", "quantifier": "every hand with counts 0-4", "why_tests_cant": "all decompositions", "anchors": ["MahjongAI/utils/shanten.py:ShantenSolver.solve_normal"]}
{"id": "C92", "title": "solve takes the minimum over the hand forms that apply", "statement": "solve returns the smallest of the normal, seven-pairs and thirteen-orphans values, the last two only for hands without called melds.", "quantifier": "every hand", "why_tests_cant": "all hands", "anchors": ["MahjongAI/utils/shanten.py:ShantenSolver.solve"]}
{"id": "C93", "title": "A logged meld is read with exactly the tiles that were played", "statement": "For every meld that can occur in a log, whatever copies of the tiles it uses, the code written in the documented format is accepted, classified as that type only, and read back with the source seat, the exact tiles from the hand and the exact called tile; the documented format covers exactly the well-formed codes.", "quantifier": "every chi, pon, added, open and closed kan with any copies and any called tile", "why_tests_cant": "all tile combinations", "anchors": ["MahjongAI/draw.py:Naki.get_exposed", "MahjongAI/draw.py:Naki.from_who", "MahjongAI/draw.py:Naki._clean"]}
{"id": "C94", "title": "Each head is evaluated once, on whole, distinct samples", "statement": "forward evaluates the network once for each head that has samples, in the order own turn, discard, call: on all samples, or, when sampling and there are more than the sample size, on exactly as many different samples as the sample size, with all seven tensors picked alike.", "quantifier": "every batch, sample size and permutation", "why_tests_cant": "all permutations", "anchors": ["MahjongAI/agents/transformer.py:TransformerModel.forward", "MahjongAI/agents/transformer_conv_ordered.py:TransformerConvOrderedModel.forward"]}
{"id": "C95", "title": "Samples of a batch do not influence each other", "statement": "The logits of a sample are the same in every batch that contains it; a batch is evaluated without exception exactly if each of its samples is, and its loss is the mean of the losses of the samples.", "quantifier": "every batch, all parameters, all numbers of blocks, real arithmetic, evaluation mode", "why_tests_cant": "all parameters and inputs", "anchors": ["MahjongAI/agents/transformer.py:Encoder.forward", "MahjongAI/agents/transformer.py:Decoder.forward", "MahjongAI/agents/transformer_conv.py:Decoder.forward", "MahjongAI/agents/transformer_conv_large.py:Decoder.forward", "MahjongAI/agents/transformer_conv_ordered.py:Decoder.forward", "MahjongAI/agents/transformer.py:Head.forward", "MahjongAI/agents/transformer.py:StateNet.forward"]}
{"id": "C96", "title": "The validation loss is the mean loss over the validation decisions", "statement": "estimate_loss returns the mean of the losses of all decisions in the validation batches.", "quantifier": "all numbers of batches and samples, real arithmetic", "why_tests_cant": "depends on uneven batch sizes", "anchors": ["MahjongAI/supervised_learning.py:estimate_loss", "MahjongAI/agents/transformer.py:TransformerModel.forward"]}
{"id": "C97", "title": "The best action is always an allowed one", "statement": "For every input, every allowed action gets a strictly larger logit than every forbidden one.", "quantifier": "every input; all parameters, all numbers of blocks, real arithmetic, evaluation mode; parameters of the last two layers bounded (by 1000 is enough)", "why_tests_cant": "all inputs", "anchors": ["MahjongAI/agents/transformer.py:Decoder.forward", "MahjongAI/agents/transformer_conv.py:Decoder.forward", "MahjongAI/agents/transformer_conv_large.py:Decoder.forward", "MahjongAI/agents/transformer_conv_ordered.py:Decoder.forward"]}
{"id": "C98", "title": "Padding gets no attention", "statement": "Attention weights of padding positions are zero, so the output depends on the actual events only.", "quantifier": "every input, all parameters, all numbers of blocks, real arithmetic, evaluation mode", "why_tests_cant": "all parameters", "anchors": ["MahjongAI/agents/transformer.py:Head.forward", "MahjongAI/agents/transformer_conv_ordered.py:Head.forward", "MahjongAI/agents/transformer.py:Encoder.forward"]}
{"id": "C99", "title": "Every parameter can influence the output", "statement": "There is no parameter of the model that has no influence on logits and loss: for every single number among the parameters there are values of the others and an input with tokens of events for which the logits depend on it.", "quantifier": "every single parameter, every input, all numbers of blocks, all parameters, all numbers of blocks, real arithmetic, evaluation mode", "why_tests_cant": "no finite set of inputs shows that there is no influence; there are hundreds of thousands of parameters", "anchors": ["MahjongAI/agents/transformer_conv_ordered.py:DecoderBlock.forward", "MahjongAI/agents/transformer_conv_ordered.py:Head.forward", "MahjongAI/agents/transformer.py:Head.forward", "MahjongAI/agents/transformer.py:EncoderBlock.forward", "MahjongAI/agents/transformer.py:DecoderBlock.forward", "MahjongAI/agents/transformer.py:StateNet.forward", "MahjongAI/agents/transformer.py:Encoder.forward"]}
{"id": "C100", "title": "The network accepts every batch built from accepted games", "statement": "When the tensors of games of accepted rounds have been built and batched, forward raises no exception: no assertion about masks, no index or shape error, with or without sampling.", "quantifier": "all games of accepted rounds, all three tensor formats, all parameters, all numbers of blocks, real arithmetic, evaluation mode", "why_tests_cant": "combination of parser, tensors, batching and network", "anchors": ["MahjongAI/agents/transformer.py:TransformerModel.forward", "MahjongAI/agents/transformer.py:Encoder.forward", "MahjongAI/agents/transformer.py:Decoder.forward", "MahjongAI/agents/transformer.py:TransformerTensorProcessor.build_tensors", "MahjongAI/agents/transformer.py:TransformerTensorProcessor.prepare_batches"]}
{"id": "C101", "title": "Every played round can be turned into tensors, from log to loss", "statement": "build_tensors succeeds for every round the parser accepts, if closed and added kans are made by the player who has just drawn, melds are in the documented format, there are four scores and at most four riichi; in general it succeeds exactly if no half-turn used for training comes after 150 or more tokens, there are four scores and everybody who discards still has a tile at the end. For such games batching and the network do not raise either.", "quantifier": "all accepted rounds, all three tensor formats, all parameters", "why_tests_cant": "all logs; needs bounds on the number of events of a round", "anchors": ["MahjongAI/agents/transformer.py:TransformerTensorProcessor.build_tensors", "MahjongAI/agents/transformer_conv.py:TransformerTensorProcessor.build_tensors", "MahjongAI/agents/transformer_conv_ordered.py:TransformerTensorProcessor.build_tensors", "MahjongAI/process_xml.py:process"]}
{"id": "C102", "title": "Logs are read as the games that were played", "statement": "A document whose events, apart from bookkeeping, are rounds written in the log format (INIT with deal, scores, dealer and seed; T/U/V/W and D/E/F/G plus tile number for draws and discards of seats 0-3; N, DORA, REACH, AGARI and RYUUKYOKU with their attributes) of a standard game is processed as exactly these rounds in order, each event with its player, tile and meld code. Nothing else is read as a draw or discard of that seat and tile.", "quantifier": "all documents, all numbers of rounds, events and extra attributes; int() must read decimal numbers", "why_tests_cant": "any number of rounds, events, and any text around them; tests read a few logs and have no independent description of them", "anchors": ["MahjongAI/process_xml.py:process", "MahjongAI/process_xml.py:_get_rounds"]}
{"id": "C103", "title": "Riichi is offered exactly when the rules allow it", "statement": "At a draw the player gets one riichi decision iff the player has not yet declared riichi, has made no open call, the concealed tiles are at most one tile from complete (shanten 0 or less) and the player has the 1000 points; otherwise none.", "quantifier": "every accepted log, every draw, every answer of the shanten calculator", "why_tests_cant": "all histories and hands; no test parses a log with a riichi", "anchors": ["MahjongAI/process_xml.py:process"]}
{"id": "C104", "title": "Closed kans are offered exactly for four concealed tiles", "statement": "At a draw the closed-kan decisions are, in ascending order and once each, those for the kinds of which the player who drew holds all four tiles concealed.", "quantifier": "every accepted log, every draw", "why_tests_cant": "all histories and hands", "anchors": ["MahjongAI/process_xml.py:process", "MahjongAI/draw.py:Naki.from_ankan_info"]}
{"id": "C105", "title": "Added kans are offered exactly when possible", "statement": "At a draw an added kan of a kind is offered iff the player has a pon of that kind and holds the fourth tile.", "quantifier": "every accepted log, every draw", "why_tests_cant": "needs a pon followed by the fourth tile; the table is indexed by tile but the code looks up the kind", "anchors": ["MahjongAI/process_xml.py:process", "MahjongAI/draw.py:Naki.from_kakan_info"]}
{"id": "C106", "title": "A kan made in the own turn is recognised", "statement": "When the player who has drawn makes a closed or added kan, the decision for exactly this kan is among those of the turn and gets marked as executed.", "quantifier": "every accepted log, every closed or added kan", "why_tests_cant": "depends on how the logged code and the offered code are made", "anchors": ["MahjongAI/process_xml.py:process", "MahjongAI/draw.py:Naki._clean"]}
{"id": "C107", "title": "Recorded melds are the melds on the table", "statement": "The melds recorded for a player, which the win evaluator gets, are the player's calls in order, where an added kan takes the place of the pon it extends.", "quantifier": "every accepted log with documented meld codes and at most one pon of a kind per player", "why_tests_cant": "all call histories", "anchors": ["MahjongAI/process_xml.py:process"]}
{"id": "C108", "title": "Dora indicators, discards, sticks and dealer are those of the log", "statement": "At every moment the dora list is the first indicator and those turned since, in order; the discard table of a player marks exactly the slots of the tiles the player has discarded; the sticks are those at the start plus one per accepted riichi; honba and dealer are those of the INIT event.", "quantifier": "every accepted log, every moment", "why_tests_cant": "all histories", "anchors": ["MahjongAI/process_xml.py:process"]}
{"id": "C109", "title": "Double riichi, tenhou and chiihou mean the uninterrupted first go-around", "statement": "double_reaches[p] is set iff p's riichi was accepted when nobody had called and p had drawn once; the evaluator is told of tenhou iff nothing was moved before the draw and of chiihou iff nobody has called and it is the first draw of a player other than the dealer.", "quantifier": "every accepted log, draws in turn order", "why_tests_cant": "the counter behind it is wrong only after kans in the first go-around", "anchors": ["MahjongAI/process_xml.py:process"]}
{"id": "C110", "title": "A self-drawn win is judged by the true hand and table", "statement": "At every draw the evaluator is asked one question, and the win decision of the turn is its answer. The question has every tile the player owns (dealt, drawn, called, not discarded), the drawn tile, the indicators and melds on the table, riichi, round, honba and sticks, all as in the log.", "quantifier": "every accepted log with documented meld codes, every draw, every evaluator", "why_tests_cant": "all histories and hands; the evaluator is a library", "anchors": ["MahjongAI/process_xml.py:process", "MahjongAI/utils/agari.py:evaluate_tsumo"]}
{"id": "C111", "title": "A win on a discard is judged by the true hand and table", "statement": "After every discard each other player who has not discarded the kind is judged by one question about the tiles they own plus the discarded one, the indicators, melds, riichi, round, honba and sticks of the log; their win decision is the answer. The discarder and players who have discarded the kind get none.", "quantifier": "every accepted log with documented meld codes, every discard, every evaluator", "why_tests_cant": "all histories and hands", "anchors": ["MahjongAI/process_xml.py:process", "MahjongAI/utils/agari.py:evaluate_ron"]}
{"id": "C112", "title": "Robbing an added kan is judged by the true hand and table", "statement": "After every added kan each other player who has not discarded the kind is judged by one question about the tiles they own plus the added one, marked as robbing a kan and not as anything else; their win decision is the answer.", "quantifier": "every accepted log with documented meld codes, every added kan, every evaluator", "why_tests_cant": "no test has a log with an added kan", "anchors": ["MahjongAI/process_xml.py:process", "MahjongAI/utils/agari.py:evaluate_ron"]}
{"id": "C113", "title": "The evaluator is told of wins after a kan, with the last tile, and before the first draw", "statement": "The flags is_rinshan, is_haitei, is_houtei and is_renhou of the question are set exactly for a draw after a kan, the last draw of the wall, the discard after it, and a discard in the first go-around before the winner's first draw.", "quantifier": "every accepted log, every draw and discard", "why_tests_cant": "needs whole rounds with kans, and all dealers", "anchors": ["MahjongAI/process_xml.py:process", "MahjongAI/utils/agari.py:evaluate_ron", "MahjongAI/utils/agari.py:evaluate_tsumo"]}
{"id": "C114", "title": "No win on a discard in furiten", "statement": "A player who has discarded a tile that completes the hand, or has let a winning discard pass since the last own draw, is offered no win on a discard.", "quantifier": "every accepted log, every discard, every evaluator", "why_tests_cant": "needs hands with several winning tiles and a pass", "anchors": ["MahjongAI/process_xml.py:process", "MahjongAI/utils/agari.py:evaluate_ron"]}
{"id": "C115", "title": "Legal rounds are accepted", "statement": "Every legally played round is processed without an exception and its data goes through the whole pipeline: the deal is fair, each tile drawn is unseen, each tile discarded is held, calls take the tile just discarded with tiles held, riichi is declared in an own turn and paid after the discard.", "quantifier": "every legally played round, every evaluator and shanten calculator that answers all questions", "why_tests_cant": "the set of legal rounds is astronomically large; tests try a handful of logs", "anchors": ["MahjongAI/process_xml.py:process"]}
{"id": "C116", "title": "The state recorded for a decision is the state of the game", "statement": "At each draw, discard and added kan the snapshot kept for training shows what the log says at that moment: scores, sticks, round, dora, riichi flags, discards, melds and hands.", "quantifier": "every accepted log, every recorded moment", "why_tests_cant": "a stale field shows only at certain moments of certain rounds", "anchors": ["MahjongAI/process_xml.py:process", "MahjongAI/state.py:StateObject"]}
{"id": "C117", "title": "The ippatsu input is right", "statement": "In every snapshot the ippatsu flag of a player is set exactly while that player could win with ippatsu: since the riichi was paid neither has anybody called nor has the player drawn.", "quantifier": "every accepted log, every recorded moment", "why_tests_cant": "needs a riichi followed by specific turns", "anchors": ["MahjongAI/process_xml.py:process", "MahjongAI/state.py:StateObject"]}
{"id": "C118", "title": "The calls offered are those the hands allow", "statement": "After each discard each other player is offered an open kan, a pon and the chi of each run exactly when the tiles that the player holds according to the log allow it, the chi only to the next player; red fives are shown when the discarded tile is the red five.", "quantifier": "every accepted log, every discard, every player", "why_tests_cant": "needs all combinations of held tiles around a discard", "anchors": ["MahjongAI/process_xml.py:process", "MahjongAI/decision.py:decision_mask"]}
{"id": "C119", "title": "A call that is made is marked", "statement": "When a player calls a discard, the decision for this call in that player's list at this discard is marked as executed.", "quantifier": "every accepted log with a call on a discard", "why_tests_cant": "the codes agree for many calls and differ for some", "anchors": ["MahjongAI/process_xml.py:process", "MahjongAI/decision.py:decision_mask"]}
{"id": "C120", "title": "Training samples show the table of the log", "statement": "The samples come from the decision points of the log in order: at most one per draw, one per discard with the discarded kind as label, and one for each reacting player after a discard or added kan, in seat order. Each shows the tokens of the events before it, and as state the scores, dealer, remaining dealerships, riichi, sticks, honba, wall and discards, the hand, unseen tiles and closed hands at that moment.", "quantifier": "every accepted log in which kans are made by the player who drew, every sample, all three tensor formats", "why_tests_cant": "every entry of every tensor of every sample, over all logs", "anchors": ["MahjongAI/agents/transformer.py:TransformerTensorProcessor.build_tensors", "MahjongAI/agents/transformer_conv.py:TransformerTensorProcessor.build_tensors", "MahjongAI/agents/transformer_conv_ordered.py:TransformerTensorProcessor.build_tensors", "MahjongAI/process_xml.py:process", "MahjongAI/state.py:StateObject"]}
{"id": "C121", "title": "The winning tile is among the tiles the evaluator is given", "statement": "When the evaluator is asked whether a drawn or discarded tile wins, the tiles it is given, which are rebuilt from digit strings, include that very tile and not only another copy of it, so that a completed hand is not turned down.", "quantifier": "every accepted log, every draw and discard, every way of turning the strings into tiles, every evaluator that wants the winning tile among the tiles", "why_tests_cant": "all histories, all converters and evaluators; the libraries are not available", "anchors": ["MahjongAI/utils/agari.py:evaluate_tsumo", "MahjongAI/utils/agari.py:evaluate_ron", "MahjongAI/utils/agari.py:hand_tensor2strs"]}
{"id": "C122", "title": "Only questions about hands that exist are asked", "statement": "The hand evaluator and the shanten calculator are only asked about hands that exist: as many tiles as a complete hand has, at most four of a kind, melds of the game which are among the tiles together with the winning tile, tile numbers below 136. Answers to other questions change nothing, and a legally played round is processed even if the helpers fail on all of them.", "quantifier": "every accepted log in which the tile just discarded is called and pons of the own are extended, every pair of evaluators and of shanten calculators that agree on such hands; for acceptance every legally played round", "why_tests_cant": "all histories, all helpers; the libraries raise exceptions on impossible hands", "anchors": ["MahjongAI/utils/agari.py:evaluate_tsumo", "MahjongAI/utils/agari.py:evaluate_ron", "MahjongAI/utils/agari.py:hand_tensor2strs", "MahjongAI/process_xml.py:process"]}
{"id": "C123", "title": "Logs of legal games train without an exception", "statement": "One iteration of training on directories of logs, each the log of a game played by the rules or of a game of another kind, the last one of the former: every game is read once, in full, as it was played; no batch is empty; for every batch the tensors are built, the network accepts them for all parameters, and at least one loss results; validation does not fail; the iteration ends.", "quantifier": "all such directories, all batch sizes above 0, all three tensor formats, all parameters, all helpers that answer about hands that exist", "why_tests_cant": "every step can fail only on certain games; all games, all file orders", "anchors": ["MahjongAI/supervised_learning.py:train", "MahjongAI/supervised_learning.py:estimate_loss", "MahjongAI/utils/dataloader.py:DataLoader", "MahjongAI/process_xml.py:process", "MahjongAI/agents/transformer.py:TransformerTensorProcessor.build_tensors"]}
{"id": "C124", "title": "Attention is scaled dot-product attention", "statement": "The weights a head gives to the positions are positive, add up to one and are in the proportion exp((q.k - q.k')/sqrt(8)) of the scalar products of query and keys; the output is the average of the values with these weights, so it never leaves the range of the values; the outputs of the eight heads are put one after the other and projected.", "quantifier": "all inputs and parameters, over the reals", "why_tests_cant": "all real inputs", "anchors": ["MahjongAI/agents/transformer.py:Head.forward", "MahjongAI/agents/transformer.py:MultiHeadAttention.forward", "MahjongAI/agents/transformer_conv_ordered.py:Head.forward", "MahjongAI/agents/transformer_conv_ordered.py:MultiHeadAttention.forward"]}
{"id": "C125", "title": "Layer norm has mean zero and unit variance", "statement": "A layer norm moves and scales its input to mean zero and variance one (with 1e-5 added to the variance), then applies weight and bias entry by entry. This determines it, and it is not changed by adding a number to all entries.", "quantifier": "all inputs and parameters", "why_tests_cant": "all real inputs", "anchors": ["MahjongAI/agents/transformer.py:EncoderBlock.forward", "MahjongAI/agents/transformer.py:DecoderBlock.forward", "MahjongAI/agents/transformer_conv_ordered.py:EncoderBlock.forward", "MahjongAI/agents/transformer_conv_ordered.py:DecoderBlock.forward"]}
{"id": "C126", "title": "Blocks are residual: they add a bounded amount", "statement": "Every encoder and decoder block adds to each entry at most an amount given by its parameters (and, in the decoder, the size of the encoder output), however large the input is. Any number of encoder blocks adds at most the sum of these amounts, and a block whose last layers are zero passes on its input.", "quantifier": "all inputs, parameters and numbers of blocks; the activation must satisfy |gelu(z)| <= |z|", "why_tests_cant": "all real inputs and parameters", "anchors": ["MahjongAI/agents/transformer.py:EncoderBlock.forward", "MahjongAI/agents/transformer.py:DecoderBlock.forward", "MahjongAI/agents/transformer_conv_ordered.py:EncoderBlock.forward", "MahjongAI/agents/transformer_conv_ordered.py:DecoderBlock.forward", "MahjongAI/agents/transformer.py:FeedForward.forward"]}
{"id": "C127", "title": "The order of events is known only through the position codes", "statement": "Reordering the embedded events reorders the encoder outputs and leaves logits and loss unchanged. So the order of events reaches the network only through the position table: with a constant table all orders would look the same.", "quantifier": "all inputs, parameters and permutations, a different one for each sample", "why_tests_cant": "150! orders", "anchors": ["MahjongAI/agents/transformer.py:Encoder.forward", "MahjongAI/agents/transformer.py:Decoder.forward", "MahjongAI/agents/transformer_conv_ordered.py:Encoder.forward", "MahjongAI/agents/transformer_conv_ordered.py:Decoder.forward"]}
{"id": "C128", "title": "The convolution combines a tile with its neighbours in the suit", "statement": "The convolutions combine the slot of a tile with those of the tiles one below and one above it in its suit, and with no others.", "quantifier": "all slots, inputs and filters", "why_tests_cant": "all filters and inputs", "anchors": ["MahjongAI/agents/transformer_conv.py:StateNet.forward", "MahjongAI/agents/transformer_conv_ordered.py:StateNet.forward"]}
{"id": "C129", "title": "Nothing of the state is hidden from the network", "statement": "For any two different states (x1, x2, x3) there are parameters for which the logits of every action differ, for any number of layers and whatever the encoder outputs. In whole runs, two samples with different states get different logits for any action that both allow, whatever their events and the other samples of their batches are.", "quantifier": "all pairs of states, all three formats, all depths", "why_tests_cant": "all pairs of real tensors", "anchors": ["MahjongAI/agents/transformer.py:StateNet.forward", "MahjongAI/agents/transformer_conv.py:StateNet.forward", "MahjongAI/agents/transformer_conv_ordered.py:StateNet.forward", "MahjongAI/agents/transformer.py:Decoder.forward"]}
{"id": "C130", "title": "Dropout changes numbers only", "statement": "In training mode, whatever the random factors: an exception is raised iff it is raised in evaluation mode, so the batches of an epoch over logs of games played by the rules can be trained on; every allowed action still gets a larger logit than every forbidden one; the logits of a sample depend only on this sample and its own factors. With factors one, training mode is evaluation mode.", "quantifier": "all inputs, parameters and dropout factors", "why_tests_cant": "all random choices", "anchors": ["MahjongAI/agents/transformer.py:Head.forward", "MahjongAI/agents/transformer.py:MultiHeadAttention.forward", "MahjongAI/agents/transformer.py:FeedForward", "MahjongAI/agents/transformer_conv_ordered.py:Head.forward", "MahjongAI/supervised_learning.py:estimate_loss"]}
{"id": "C131", "title": "The games that come with the code are played by the rules", "statement": "A decision program decides for every recorded round whether it was played by the rules. Both complete games in the repository pass it, all 27 rounds, so the rules assumed by the other properties are not too strict for real logs: both games are processed without an exception and can be trained on, for all answers of the helpers.", "quantifier": "all rounds (decision program); the two logs; all helpers that answer", "why_tests_cant": "the helpers' answers are arbitrary; the rules are decided for all rounds", "anchors": ["MahjongAI/process_xml.py:process", "MahjongAI/process_xml.py:_get_rounds", "MahjongAI/process_xml.py:process_round", "MahjongAI/supervised_learning.py:train"]}
{"id": "C132", "title": "The loss is a smooth function of the parameters", "statement": "For every batch logits and loss depend continuously on all parameters of the network, and differentiably, everywhere, on those outside StateNet; StateNet is made of rectifiers, which are not differentiable at zero. Either the same exception is raised for all parameters or for none. Parameters of the last layers of the other heads have no influence.", "quantifier": "all inputs, all curves of parameters, any depth; the activation is assumed continuous or differentiable", "why_tests_cant": "all real parameters; no test looks at a derivative", "anchors": ["MahjongAI/agents/transformer.py:TransformerModel.forward", "MahjongAI/agents/transformer.py:Decoder.forward", "MahjongAI/agents/transformer_conv_ordered.py:Decoder.forward", "MahjongAI/agents/transformer_conv.py:Decoder.forward"]}
{"id": "C133", "title": "The gradient raises the recorded action and lowers the other allowed ones", "statement": "The derivative of the loss is, per sample, the sum over the allowed actions of probability (minus one for the label) times the change of the logit. So with an allowed label a small step of gradient descent on the logits lowers the loss, raises the label, lowers every other allowed action, and forbidden actions get no gradient; with a forbidden label all allowed actions are lowered.", "quantifier": "all masks, labels, logits and batch sizes", "why_tests_cant": "all real logits", "anchors": ["MahjongAI/agents/transformer.py:Decoder.forward", "MahjongAI/agents/transformer_conv_ordered.py:Decoder.forward", "MahjongAI/agents/transformer_conv.py:Decoder.forward", "MahjongAI/supervised_learning.py:train"]}
{"id": "C134", "title": "Training cannot blow up the parameters or the masking", "statement": "One optimiser step moves a parameter by at most 7.3 learning rates plus one hundredth of a learning rate times its size, so no parameter ever gets larger than 730 or than it was at the beginning. Hence at all times during training every allowed action has a larger logit than every forbidden one. Parameters without a gradient stay as they are; the first loss of every run changes nothing. While the gradient is the same number, each step moves the parameter by the learning rate against its sign (up to eps and weight decay), from the first step on.", "quantifier": "all sequences of gradients (all data), any number of steps and of interruptions, over the reals", "why_tests_cant": "all data and lengths of training", "anchors": ["MahjongAI/supervised_learning.py:train", "MahjongAI/agents/transformer.py:Decoder.forward"]}
{"id": "C135", "title": "The shanten value treats suits alike", "statement": "Exchanging the suits of a hand, and exchanging its honours, does not change the value: neither that of the normal search nor that of solve, for any array of numbers.", "quantifier": "all arrays of 37 integers, all exchanges of suits and honours", "why_tests_cant": "all hands and exchanges", "anchors": ["MahjongAI/utils/shanten.py:ShantenSolver.solve_normal", "MahjongAI/utils/shanten.py:ShantenSolver.solve"]}
{"id": "C136", "title": "The shanten value treats a hand and its mirror image alike", "statement": "Exchanging ones with nines, twos with eights and so on does not change the value of the normal search.", "quantifier": "every hand with counts 0-4, at most 14 tiles", "why_tests_cant": "all hands", "anchors": ["MahjongAI/utils/shanten.py:ShantenSolver.solve_normal"]}
{"id": "C137", "title": "Every link on a page is found", "statement": "The addresses that the scraper finds on a page are those of its links, each once and in their order: links are opening tags <a href=...> with any blanks, either quote and further attributes, between them there is any text without the beginning of such a tag.", "quantifier": "all pages made of such links and texts", "why_tests_cant": "all texts; no test covers the scripts", "anchors": ["MahjongAI/data/scrape_data.py:urls"]}
{"id": "C138", "title": "The id of a game is the value of the parameter log", "statement": "For a link to the log viewer the id used for the download and for the file name is the value of the parameter log of the address; other links are ignored.", "quantifier": "all addresses", "why_tests_cant": "all texts; no test covers the scripts", "anchors": ["MahjongAI/data/scrape_data.py:gid"]}
{"id": "C139", "title": "One file for each game that could be downloaded", "statement": "The scraper writes exactly one file for every game linked on the pages for which the server answers with status 200, named after its id, with the body of the answer; other files stay as they are, the order of the pages makes no difference, and the data loader then has exactly these games in its list, each once.", "quantifier": "all directories of pages, all answers of the server, all files that were there before; ids without a slash", "why_tests_cant": "all pages and servers; no test covers the scripts", "anchors": ["MahjongAI/data/scrape_data.py:gid", "MahjongAI/utils/dataloader.py:DataLoader.__init__"]}
{"id": "C140", "title": "Only pages of the wanted kind are left for the scraper", "statement": "After filter_raw.sh each packed page scc*.gz is there unpacked, unpacked ones are unchanged, all other files that the pattern reaches are gone, and every page that the scraper reads begins with scc.", "quantifier": "all directories, all contents", "why_tests_cant": "all directories; no test covers the scripts", "anchors": ["MahjongAI/data/filter_raw.sh"]}
{"id": "C141", "title": "No peeking: samples do not depend on tiles the player cannot see", "statement": "Take two rounds with the same start and the same tiles dealt to a player, whose events differ only in the tiles the other players draw, and in which the same discards are drawn tiles. Then tokens, the player's possible and chosen actions, and the player's training samples for all heads are the same in both.", "quantifier": "all pairs of accepted rounds that look the same to a player, all evaluators, all three formats", "why_tests_cant": "a statement about pairs of runs over all hidden hands and walls", "anchors": ["MahjongAI/process_xml.py:process", "MahjongAI/agents/transformer.py:_build_during_tensor", "MahjongAI/agents/transformer.py:_build_discard_tensor", "MahjongAI/agents/transformer.py:_build_post_tensor", "MahjongAI/agents/transformer_conv_ordered.py:_build_post_tensor"]}
{"id": "C142", "title": "The seats are treated alike", "statement": "If everybody is moved on by the same number of seats (hands, points, dealer, events), an accepted round stays accepted, and the tokens, the offered and chosen actions and the training samples are the same ones moved on: in the same order, with the same hand, unseen tiles, discards, masks and labels, and the columns of the table of players moved. Only the remaining dealerships stay, as they follow from the number of the round.", "quantifier": "all rounds, all evaluators, all shifts, all three formats", "why_tests_cant": "a statement about pairs of runs; a few sample games do not tell a dependence on a seat number from one on the position relative to the dealer", "anchors": ["MahjongAI/process_xml.py:process", "MahjongAI/decision.py:decision_mask", "MahjongAI/agents/transformer.py:_build_during_tensor", "MahjongAI/agents/transformer.py:_build_discard_tensor", "MahjongAI/agents/transformer.py:_build_post_tensor", "MahjongAI/agents/transformer_conv_ordered.py:_build_post_tensor"]}
{"id": "C143", "title": "Counting in float32 loses nothing", "statement": "The counts of a round (hands, tiles seen, tiles left) are float32 numbers. Rounding after every addition, subtraction and product, and adding up arrays in whatever order, gives exactly the same exception or the same state as counting with whole numbers.", "quantifier": "all rounds with up to 100000 events, all orders of summation", "why_tests_cant": "float32 is exact up to 2^24 only; tests see the values of sample games, not a bound for all rounds", "anchors": ["MahjongAI/process_xml.py:process", "MahjongAI/decision.py:decision_mask", "MahjongAI/utils/agari.py:evaluate_ron", "MahjongAI/utils/constants.py:REMAINING_TILES"]}
{"id": "C144", "title": "The network is given the samples and nothing else", "statement": "What forward yields for a batch of accepted games is, for each head with samples, the logits of its samples evaluated one by one and the mean of their losses; every number given to the network is the entry of the sample at the same place, and none is missing. The validation loss is the mean of the yielded losses, or ZeroDivisionError if there are none.", "quantifier": "all games of accepted rounds, all three tensor formats, with or without sampling, all parameters, all numbers of blocks, real arithmetic, evaluation mode", "why_tests_cant": "joins tensor processor, batching, sampling and network; a shifted or dropped component changes losses without raising", "anchors": ["MahjongAI/agents/transformer.py:TransformerModel.forward", "MahjongAI/agents/transformer_conv_ordered.py:TransformerConvOrderedModel.forward", "MahjongAI/agents/transformer.py:TransformerTensorProcessor.prepare_batches", "MahjongAI/supervised_learning.py:estimate_loss"]}
{"id": "C145", "title": "The arguments of the training program choose exactly one network", "statement": "The names that the program accepts are exactly those for which train makes a network, so its NotImplementedError cannot be reached; different names stand for different networks. Training begins exactly if there are two arguments, such a name and a number, and all nine data directories exist, also those the iterations asked for do not use.", "quantifier": "all argument lists, all directories", "why_tests_cant": "all texts; the two lists of names are kept in different places", "anchors": ["MahjongAI/supervised_learning.py:train", "MahjongAI/utils/dataloader.py:DataLoader.__init__"]}
{"id": "C146", "title": "No game is both trained and validated on", "statement": "No file is opened both for training and for validation, and no game is if files are named after games and lie in the directory of their year. Two iterations share a file only if their numbers differ by a multiple of eight; over any history of interrupted and resumed runs the years are used equally often, up to one.", "quantifier": "all contents of the directories, all histories of runs", "why_tests_cant": "all directories and histories", "anchors": ["MahjongAI/supervised_learning.py:train", "MahjongAI/supervised_learning.py:find_latest_checkpoint", "MahjongAI/utils/dataloader.py:DataLoader.__next__"]}
{"id": "C147", "title": "The training program runs through on legal games, and what stops it stops it for good", "statement": "With logs of legal games in all nine directories the program, called with an accepted name and a number, completes exactly the iterations asked for, beginning with the first not yet saved, and saves each. In general it saves the iterations before the first one that raises. An iteration that always raises, for instance because an assertion fails for one file of its year, blocks every later run: nothing is written, and the next run begins with it again.", "quantifier": "all networks, all directories of legal games, all checkpoint directories left by earlier runs; general part: all directories, games and losses", "why_tests_cant": "the whole program, which needs years of data, over any number of runs", "anchors": ["MahjongAI/supervised_learning.py:train", "MahjongAI/supervised_learning.py:find_latest_checkpoint", "MahjongAI/supervised_learning.py:estimate_loss", "MahjongAI/utils/dataloader.py:DataLoader.__next__", "MahjongAI/process_xml.py:process"]}
{"id": "C148", "title": "Masking is exact in float32", "statement": "In float32 arithmetic, rounding after each operation: the loss of an allowed label is, digit for digit, the loss computed from the allowed actions alone; forbidden actions get probability exactly zero; the loss is neither negative nor infinite. A forbidden label costs the same whatever the network says, exactly 10^9 while the logits are below 32 in size, and makes the loss of a batch of B samples at least 10^9/B.", "quantifier": "all masks and logits (the best allowed one from -10^8 on), up to 1000 actions, all roundings to nearest, all orders of summation, any exp and log that keep their range", "why_tests_cant": "all float vectors and orders of summation; the last digits differ between machines", "anchors": ["MahjongAI/agents/transformer.py:Decoder.forward", "MahjongAI/agents/transformer_conv.py:Decoder.forward", "MahjongAI/agents/transformer_conv_large.py:Decoder.forward", "MahjongAI/agents/transformer_conv_ordered.py:Decoder.forward"]}
{"id": "C149", "title": "The samples are stored without loss in float32", "statement": "Storing the tensors of a round (tokens, the three kinds of inputs, masks) as float32 and reading the tokens back as integers changes no number, for one round and for the joined batches.", "quantifier": "all rounds whose log numbers are at most 10^6 and with at most 100000 events; all three model variants", "why_tests_cant": "all rounds and all numbers in a log; rounding only shows beyond 2^24", "anchors": ["MahjongAI/agents/transformer.py:TransformerTensorProcessor._build_during_tensor", "MahjongAI/agents/transformer.py:TransformerTensorProcessor._build_discard_tensor", "MahjongAI/agents/transformer.py:TransformerTensorProcessor._build_post_tensor", "MahjongAI/agents/transformer.py:Encoder.forward"]}
{"id": "C150", "title": "Every row of the embedding tables can be used", "statement": "For every row of the tables of event types, tiles, tsumogiri, own-turn actions, calls, positions and players there is a token of a sample whose embedding depends on it.", "quantifier": "every table, every row, every token of a sample, every position and viewing player; three model variants", "why_tests_cant": "no finite set of games shows that a row is never used", "anchors": ["MahjongAI/agents/transformer.py:Encoder.forward", "MahjongAI/agents/transformer_conv_ordered.py:Encoder.forward", "MahjongAI/process_xml.py:discard2idx", "MahjongAI/process_xml.py:naki2idx", "MahjongAI/draw.py:Naki.get_post_turn_filter_idx"]}
{"id": "C151", "title": "Each loss is computed with the parameters left by all losses before it, and training changes only what it should", "statement": "model(...) is a generator: the losses of a batch are yielded one by one, and each optimiser step is done before the next head is evaluated. So the n-th loss of a call of train is that of the network, in training mode, with the parameters after n steps. On directories of logs of legal games this goes through, for any gradients and random numbers, with as many losses as counted and in the order of the heads. Every number of the model goes the way described in C134, over any number of calls of train; so at every loss every allowed action has a larger logit than every forbidden one. The first loss of a call changes nothing. The last layer of a head is changed only by losses of that head; fixed tables and the number of blocks stay. The numbers without influence (C99) are not learnt: whatever the data, each step only multiplies them by a factor given by the schedule.", "quantifier": "all data, all initial parameters, all gradients (for the last part: gradients that are zero or absent where the loss does not depend on the number), all permutations and dropout factors, any number of steps and calls, over the reals", "why_tests_cant": "unbounded length of training, all data", "anchors": ["MahjongAI/supervised_learning.py:train", "MahjongAI/agents/transformer.py:TransformerModel.forward", "MahjongAI/agents/transformer_conv_ordered.py:TransformerConvOrderedModel.forward", "MahjongAI/agents/transformer_conv.py:TransformerConvModel.forward"]}
{"id": "C152", "title": "Call samples are right for any decisions", "statement": "When _build_post_tensor makes a sample from the decisions of a player, whatever wins, riichi and calls are among them, the mask allows exactly passing and what is offered, the label is the executed one (a call rather than riichi, riichi rather than a win), and the players after them are left out iff something was executed. It is made iff every offered call has an action number below 154. A fourth kind of decision raises ValueError. The action number of riichi is also that of a call.", "quantifier": "all lists of decisions, three model variants", "why_tests_cant": "the parser only makes some of these lists", "anchors": ["MahjongAI/agents/transformer.py:TransformerTensorProcessor._build_post_tensor", "MahjongAI/agents/transformer_conv_ordered.py:TransformerTensorProcessor._build_post_tensor", "MahjongAI/agents/transformer_conv.py:TransformerTensorProcessor._build_post_tensor"]}
{"id": "C153", "title": "The suits are treated alike", "statement": "If the three suits (and possibly the honours among each other) are exchanged in a log (deal, indicators, draws, discards, calls), an accepted round stays accepted, and the tokens, the offered and chosen actions and the training samples of the three heads are the same ones with the suits exchanged, in the same order.", "quantifier": "all six exchanges of the suits and all permutations of the honours, all rounds, all evaluators and shanten functions with their exchanged counterparts (which always exist), all three formats", "why_tests_cant": "a statement about pairs of runs; sample games rarely contain the same situation in two suits", "anchors": ["MahjongAI/process_xml.py:process", "MahjongAI/decision.py:decision_mask", "MahjongAI/utils/agari.py:evaluate_ron", "MahjongAI/utils/agari.py:evaluate_tsumo", "MahjongAI/draw.py:Naki", "MahjongAI/agents/transformer.py:TransformerTensorProcessor._build_during_tensor", "MahjongAI/agents/transformer.py:TransformerTensorProcessor._build_discard_tensor", "MahjongAI/agents/transformer.py:TransformerTensorProcessor._build_post_tensor"]}
{"id": "C154", "title": "Copies of a tile are interchangeable", "statement": "If in a log the copies of a tile are renamed (which of the four equal tiles is dealt, shown, drawn, discarded or called; the red fives stay), the round is accepted or refused alike, with the same exception, and the tokens, decisions, labels and training samples are the very same ones.", "quantifier": "all renamings of the 136 tiles that keep the kinds and the red fives, all logs, deals, evaluators that do not look at copies and shanten functions, all three formats", "why_tests_cant": "a statement about pairs of runs: logs fix one of 4! names for each kind, and sample games never repeat a round under other names", "anchors": ["MahjongAI/process_xml.py:process", "MahjongAI/decision.py:decision_mask", "MahjongAI/utils/agari.py:evaluate_ron", "MahjongAI/utils/agari.py:evaluate_tsumo", "MahjongAI/draw.py:Naki", "MahjongAI/agents/transformer.py:TransformerTensorProcessor._build_during_tensor", "MahjongAI/agents/transformer.py:TransformerTensorProcessor._build_discard_tensor", "MahjongAI/agents/transformer.py:TransformerTensorProcessor._build_post_tensor"]}
{"id": "C155", "title": "The honours are treated alike", "statement": "If the seven honours are exchanged among each other in a log (deal, indicators, draws, discards, calls), an accepted round stays accepted, and the tokens, the offered and chosen actions and the training samples of the three heads, masks and labels included, are the same ones with the honours exchanged, number for number and in the same order.", "quantifier": "all 5040 permutations of the honours, all rounds, all evaluators and shanten functions with their exchanged counterparts (which always exist), all three formats", "why_tests_cant": "a statement about pairs of runs; sample games never contain the same round with two winds exchanged", "anchors": ["MahjongAI/process_xml.py:process", "MahjongAI/decision.py:decision_mask", "MahjongAI/draw.py:Naki.get_post_turn_filter_idx", "MahjongAI/draw.py:Naki.get_during_turn_filter_idx", "MahjongAI/agents/transformer.py:TransformerTensorProcessor._build_during_tensor", "MahjongAI/agents/transformer.py:TransformerTensorProcessor._build_discard_tensor", "MahjongAI/agents/transformer.py:TransformerTensorProcessor._build_post_tensor"]}
{"id": "C156", "title": "The planes of a sample fit together", "statement": "At every moment of every processed round and for every player, the tiles of a kind in the concealed hand, the tiles of that kind counted as unseen, and those lying face up (indicators, discards, tiles exposed in calls) are four together, and one together for each red five; hand and unseen tiles together are the same number for all four players. No training sample of an accepted round shows a negative number of tiles, nor more than four of a kind or more than one red five of a suit in hand, unseen tiles and discards together.", "quantifier": "all rounds, all moments, all four players, all 37 slots, all samples of all three heads and formats", "why_tests_cant": "relates three independently updated tables at every moment of every round; the program's own assertion only tests two of them for being non-negative at the end", "anchors": ["MahjongAI/process_xml.py:process", "MahjongAI/agents/transformer.py:TransformerTensorProcessor._convert_state_obj_to_tensors", "MahjongAI/agents/transformer_conv_ordered.py:TransformerTensorProcessor._convert_state_obj_to_tensors"]}
{"id": "C157", "title": "Low and high tiles are treated alike when calls are offered", "statement": "If ones and nines, twos and eights, threes and sevens, fours and sixes are exchanged in a player's hand and in the discarded tile, exactly the mirror images of the calls are offered: every chi at the low end corresponds to one at the high end, with the same treatment of red fives.", "quantifier": "all hands, all discarded kinds, red or not, all pairs of players; and all discards in all pairs of processed rounds", "why_tests_cant": "compares two runs on different hands; decision.py has separate functions for one/nine, two/eight, three/seven, four/six with hand-written index arithmetic for both ends", "anchors": ["MahjongAI/decision.py:decision_mask", "MahjongAI/decision.py:_one_and_nine_mask", "MahjongAI/decision.py:_two_and_eight_mask", "MahjongAI/decision.py:_three_and_seven_mask", "MahjongAI/decision.py:_four_and_six_mask", "MahjongAI/decision.py:_five_mask", "MahjongAI/process_xml.py:process"]}
{"id": "C158", "title": "The tokens tell what happened", "statement": "Two rounds have the same tokens only if the same public events happened: the same discards by the same players, of the same tiles, drawn or not; the same melds with the same tiles; the same riichi; the same indicators; in the same order.", "quantifier": "all pairs of rounds played by the rules, and all pairs of processed rounds whose calls take the tile discarded last", "why_tests_cant": "injectivity over all pairs of event sequences; the numbers of calls alone are ambiguous (C11), so it has to be shown that the preceding discard resolves every ambiguity", "anchors": ["MahjongAI/process_xml.py:discard2idx", "MahjongAI/process_xml.py:naki2idx", "MahjongAI/process_xml.py:reach2idx", "MahjongAI/process_xml.py:new_dora2idx", "MahjongAI/draw.py:Naki.get_post_turn_filter_idx", "MahjongAI/process_xml.py:process"]}
{"id": "C159", "title": "The training log tells what was done", "statement": "In the log file, an iteration is said to begin iff it has begun, a checkpoint is said to be saved iff it was written, and training is said to be completed iff it was. After a run that ended with an exception, the lines end with the iteration that was not completed, and the log of the next run opens with this iteration. The learning rate is logged at all multiples of 10000 steps, validation after the batches at which it is done. In every iteration the batches are numbered from 1. On the console, exactly the files with unexpected errors are named. Keeping the loaders from iteration to iteration makes no difference to what is done.", "quantifier": "all programs' arguments, directories, games and losses, all checkpoint directories left by earlier runs, any number of iterations", "why_tests_cant": "long runs with failures at any place; the numbering goes wrong only in the ninth iteration of a run", "anchors": ["MahjongAI/supervised_learning.py:train", "MahjongAI/supervised_learning.py:estimate_loss", "MahjongAI/supervised_learning.py:log_message", "MahjongAI/utils/dataloader.py:DataLoader.__next__", "MahjongAI/utils/dataloader.py:DataLoader.reset", "MahjongAI/utils/dataloader.py:DataLoader.__repr__"]}
{"id": "C160", "title": "The shanten value counts the tiles that are missing", "statement": "For a hand of 3k+1 or 3k+2 tiles (k<=4), the smallest distance of a decomposition, and with it the value of the normal search, is one less than the smallest number of tiles that must be added for the hand to contain k sets and a pair. For 3k+2 tiles this is the smallest number of exchanges (draw a tile, discard a tile) after which the hand is complete. A draw never increases the number and lowers it by at most one, and unless nothing is missing some draw lowers it.", "quantifier": "all hands without red fives, all numbers of melds", "why_tests_cant": "compares a search with a minimum over all winning hands and over all sequences of exchanges; the exception is a single pattern of three neighbouring kinds", "anchors": ["MahjongAI/utils/shanten.py:ShantenSolver.solve_normal", "MahjongAI/utils/shanten.py:ShantenSolver._init", "MahjongAI/utils/shanten.py:ShantenSolver.solve"]}
{"id": "C161", "title": "solve counts the tiles missing to the nearest form", "statement": "For a closed hand, the value of solve is one less than the smallest number of tiles missing to four sets and a pair, to seven pairs of different kinds, or to thirteen orphans.", "quantifier": "all closed hands of 13 or 14 tiles without red fives", "why_tests_cant": "minimum over all winning hands of three forms; the seven-pairs formula is wrong only for hands with fewer than seven kinds", "anchors": ["MahjongAI/utils/shanten.py:ShantenSolver.solve", "MahjongAI/utils/shanten.py:ShantenSolver.solve_chitoitsu", "MahjongAI/utils/shanten.py:ShantenSolver.solve_kokushi"]}
{"id": "C162", "title": "The printed forms show what they are meant to show", "statement": "Printing a meld or a half-turn never raises. Two melds are printed alike iff they are of the same type with the same action number. Two half-turns are printed alike iff they are of the same type and player and have the same discarded tile or the same decisions: for each player, in order, type, player, meld and whether taken. The printed game information shows exactly the last eight bits of the game type, that of a round also its number, a printed result whether the round was won and the numbers of the log. A printed number is read by int as that number; lists are printed in brackets with a comma and a blank between the elements.", "quantifier": "all meld codes (any 16 bits and more), half-turns with any lists of decisions, all game types and scores", "why_tests_cant": "nested lists of texts that contain the separators themselves; needs a proof that the text can be read back", "anchors": ["MahjongAI/draw.py:Naki.__repr__", "MahjongAI/decision.py:NakiDecision.__repr__", "MahjongAI/decision.py:ReachDecision.__repr__", "MahjongAI/decision.py:AgariDecision.__repr__", "MahjongAI/turn.py:DuringTurn.__repr__", "MahjongAI/turn.py:DiscardTurn.__repr__", "MahjongAI/turn.py:PostTurn.__repr__", "MahjongAI/gameinfo.py:GameInfo.__repr__", "MahjongAI/gameinfo.py:RoundInfo.__repr__", "MahjongAI/result.py:AgariResult.__repr__", "MahjongAI/result.py:RyukyokuResult.__repr__"]}
{"id": "C163", "title": "Verbose output tells the rounds and changes nothing", "statement": "process returns or raises the same with verbose=True. For a game that is processed it prints for each round, in order, scores, parent, number of the round, sticks and remaining rounds as they are in the log, one result for each result of the log, and the number of half-turns. A round begun is announced even if it fails later, and what was printed of the rounds before it stays.", "quantifier": "all documents, all hand evaluators and shanten functions", "why_tests_cant": "games of any length that fail at any event; the wrong number is printed without an error", "anchors": ["MahjongAI/process_xml.py:process", "MahjongAI/result.py:RoundResult"]}
{"id": "C164", "title": "Codes of positions and seats depend on distances only", "statement": "The fixed tables of the encoder put the events of a round and the four seats on circles that turn at speeds falling geometrically from 1 to 1/10000: the two entries for a circle are sine and cosine of position times speed. So how alike two positions are (inner product of their codes) is a function of their distance, greatest for equal positions only, and shifting a position is a rotation that does not depend on the position. The codes of two neighbouring seats should be equally alike all around the table.", "quantifier": "all embedding sizes, positions, distances and circles, over the reals", "why_tests_cant": "infinitely many positions and sizes; irrational numbers", "anchors": ["MahjongAI/agents/transformer.py:Encoder._get_position_encoding", "MahjongAI/agents/transformer.py:Encoder._get_player_encoding"]}
{"id": "C165", "title": "A new network guesses among the allowed actions", "statement": "When a model is made its biases are zero and its weights small. So before training no action is preferred: every allowed action gets about the same probability, the loss of a sample is about the logarithm of the number of allowed actions, and the first loss of a batch is about the mean of these logarithms. The distance is at most 16 r + 1e-6, where r bounds the length of the weights of an action (about 0.16 for weights with deviation 0.02). This holds for every input, in evaluation and in training mode. Padding has key and value zero in the first layer, and a padding position attends to all positions alike. For a sample without events the encoder of a new ordered network gives zero if gelu 0 = 0.", "quantifier": "all three networks and heads, all weights with rows of length at most r, all inputs, dropout factors and batch sizes", "why_tests_cant": "It is about every draw of the weights and every batch; one run sees one draw, and a first loss that is off by a constant looks like chance.", "anchors": ["MahjongAI/agents/transformer.py:43-49", "MahjongAI/agents/transformer.py:133-143", "MahjongAI/agents/transformer.py:292-298", "MahjongAI/agents/transformer.py:300-340", "MahjongAI/agents/transformer_conv_ordered.py:175-185"]}
{"id": "C166", "title": "In evaluation the order of games, samples and batches does not matter", "statement": "What the network yields for a sample in evaluation is a function of the sample alone. So if the rounds of a batch come in another order, or are distributed over the games in another way, prepare_batches builds the same samples in another order, forward yields the same losses for the same heads, and every sample keeps its logits. The loss of two lots of samples put together is the mean of the two losses weighted by the numbers of samples. Batches in another order give the same validation loss.", "quantifier": "all accepted rounds in any order and grouping, all three networks, parameters and heads", "why_tests_cant": "All orders of all batches; a test compares a few orders, and slips in stacking show up only as slightly wrong labels.", "anchors": ["MahjongAI/agents/transformer.py:51-104", "MahjongAI/agents/transformer.py:520-600", "MahjongAI/supervised_learning.py:185-207"]}
{"id": "C167", "title": "A checkpoint fits only the network it was made for, and holds all of it", "statement": "The state dictionary of a model has no key twice. load_state_dict accepts it for a model iff kind of network and number of layers are the same, and raises RuntimeError otherwise, so none of the nine names of training accepts the checkpoint of another. A model that has loaded a checkpoint computes what the saved model computed, in evaluation and in training mode, whatever its own numbers were. The number of parameters printed when the file of a network is run is the number of numbers that training changes: 116736 for each layer and 90150, 149678 or 254734 for the rest. Running any of the four files should print it.", "quantifier": "all three networks, all numbers of layers, all parameters, all batches of tokens that occur in samples", "why_tests_cant": "all pairs of networks and all values of a hundred thousand parameters; a part that is not saved shows up only as slightly worse play", "anchors": ["MahjongAI/supervised_learning.py:125", "MahjongAI/supervised_learning.py:182", "MahjongAI/supervised_learning.py:62-91", "MahjongAI/agents/transformer.py:34-41", "MahjongAI/agents/transformer.py:108-131", "MahjongAI/agents/transformer.py:273-290", "MahjongAI/agents/transformer.py:340-411", "MahjongAI/agents/transformer.py:458-519", "MahjongAI/agents/transformer.py:1152-1154", "MahjongAI/agents/transformer_conv.py:1134-1136", "MahjongAI/agents/transformer_conv_large.py:1140-1142", "MahjongAI/agents/transformer_conv_ordered.py:1283-1285"]}
{"id": "C168", "title": "Numbers are read as they are written", "statement": "int accepts exactly the texts made of decimal digits with single underscores between them, with an optional sign and white space around it, and returns the number they stand for. A number written in decimal digits is read as that number. So what the theorems about log files, training runs and sample games assume of int is true, and a tag is read as the draw or discard of a tile only if it is the letter of the player and a numeral of the tile.", "quantifier": "all texts, whatever Unicode says about characters outside ASCII", "why_tests_cant": "all strings; int accepts forms that nobody writes into a test", "anchors": ["MahjongAI/process_xml.py:51", "MahjongAI/process_xml.py:56", "MahjongAI/process_xml.py:65", "MahjongAI/process_xml.py:126", "MahjongAI/process_xml.py:137", "MahjongAI/process_xml.py:167-168", "MahjongAI/process_xml.py:313", "MahjongAI/process_xml.py:431", "MahjongAI/process_xml.py:523", "MahjongAI/process_xml.py:529", "MahjongAI/process_xml.py:567", "MahjongAI/supervised_learning.py:45", "MahjongAI/supervised_learning.py:239"]}
{"id": "C169", "title": "Verbose evaluation of wins tells who is furiten and changes nothing, and the examples work", "statement": "evaluate_ron and evaluate_tsumo decide the same with verbose=True, leave the same hands and raise the same exceptions. evaluate_ron then prints one line for each other player, in the order of the seats: that the player is furiten iff they have discarded the kind of the tile, else the answer of the library about this player's hand with the tile. Run as scripts, agari.py prints the answers about its first two hands, that player 3 is furiten, and the list of decisions; shanten.py prints -1 for seven pairs, and the hand as it was before the search.", "quantifier": "all libraries, hands, melds, discards and tiles; all players", "why_tests_cant": "all answers of the library, exceptions at any player; hands are changed and changed back during the search", "anchors": ["MahjongAI/utils/agari.py:evaluate_ron", "MahjongAI/utils/agari.py:evaluate_tsumo", "MahjongAI/utils/agari.py:280-483", "MahjongAI/utils/shanten.py:151-199"]}
{"id": "C170", "title": "The reported loss tells how well the network predicts", "statement": "The loss of each head for a batch of accepted games, and the validation loss, are moderate and depend on how well the network predicts what was played. (Violated for draws and discards: up to a number that depends only on the two last layers, the loss is 10^9 times the share of samples whose label the mask forbids, whatever the network predicts. These are the draws with a decision at which no kan was made and riichi was not possible, and the discards of a kind of which the player has no tile left at the end of the round. In float32 the sum of the losses then moves in steps of 64. For calls it holds.)", "quantifier": "all batches of accepted games, networks, parameters, with and without sampling; all roundings", "why_tests_cant": "all parameters and games; the share is a property of the log that no run shows", "anchors": ["MahjongAI/agents/transformer.py:Decoder.forward", "MahjongAI/agents/transformer_conv.py:Decoder.forward", "MahjongAI/agents/transformer_conv_large.py:Decoder.forward", "MahjongAI/agents/transformer_conv_ordered.py:Decoder.forward", "MahjongAI/supervised_learning.py:estimate_loss"]}
{"id": "C171", "title": "A round gives a bounded number of samples", "statement": "A round gives one discard sample for each discard, at most one own-turn sample for each draw and at most three call samples for each discard and added kan. An accepted round has at most 83 draws. A round that is really played has at most 99 discards and added kans and at most 119 tokens: it gives at most 83, 99 and 297 samples, and in each of them at least the last 31 of the 150 positions are padding.", "quantifier": "all accepted rounds and all rounds really played, of any length; all networks; batches of any number of games", "why_tests_cant": "all rounds; a bound is never shown by examples", "anchors": ["MahjongAI/agents/transformer.py:TransformerTensorProcessor.build_tensors", "MahjongAI/agents/transformer_conv.py:TransformerTensorProcessor.build_tensors", "MahjongAI/agents/transformer_conv_ordered.py:TransformerTensorProcessor.build_tensors", "MahjongAI/process_xml.py:process"]}
{"id": "C172", "title": "How much of the attention goes to the padding", "statement": "In all networks all padding positions of a sample have the same score for a query in every encoder layer and in the attention to the encoder output, whatever the parameters: their share is n/(n + sum over the events of exp(score of the event - score of the padding)), where n is the number of padding positions. In the first layer of a new ordered network the padding has score 0 and value 0, so what a head gives is what it would give for the events alone times one minus this share; with weights that stretch no vector by more than a fifth the share is at least a twelfth in every sample of every round really played.", "quantifier": "all parameters, inputs, queries, heads and layers of all networks; all weights drawn for a new network; all rounds really played", "why_tests_cant": "real-valued parameters and all rounds; the share is a sum over 150 positions of exponentials", "anchors": ["MahjongAI/agents/transformer_conv_ordered.py:Encoder.forward", "MahjongAI/agents/transformer_conv_ordered.py:Head.forward", "MahjongAI/agents/transformer_conv_ordered.py:MultiHeadAttention.forward", "MahjongAI/agents/transformer_conv_ordered.py:Encoder._init_weights"]}
{"id": "C173", "title": "The basic and convolutional networks can tell different events apart", "statement": "In the basic and the convolutional networks events that differ in the tile, the meld or the player have different embeddings for suitable tables, as in the ordered one (C81), and padding has the zero embedding.", "quantifier": "all pairs of events with well-formed melds, all tables, positions and parameters", "why_tests_cant": "all tables and all events; that events are never told apart is a statement about all parameters", "anchors": ["MahjongAI/agents/transformer.py:Encoder.forward", "MahjongAI/agents/transformer_conv.py:Encoder.forward", "MahjongAI/agents/transformer_conv_large.py:Encoder.forward", "MahjongAI/draw.py:Naki.get_post_turn_filter_idx", "MahjongAI/process_xml.py:discard2idx", "MahjongAI/process_xml.py:naki2idx"]}
{"id": "C174", "title": "In the ordered network every event can count", "statement": "For every number of blocks there are parameters of the ordered network, with its fixed codes of positions and players, for which replacing one event by another with a different token, or by padding, changes the logit of a given allowed action.", "quantifier": "all batches, all viewing players, all events with well-formed melds, all positions, all other tokens, all numbers of blocks, all heads and allowed actions", "why_tests_cant": "existence over weights for every pair of events; the whole network", "anchors": ["MahjongAI/agents/transformer_conv_ordered.py:Encoder.forward", "MahjongAI/agents/transformer_conv_ordered.py:Decoder.forward", "MahjongAI/agents/transformer_conv_ordered.py:Encoder._get_player_encoding", "MahjongAI/agents/transformer_conv_ordered.py:Encoder._get_position_encoding"]}
{"id": "C175", "title": "The order of the events can count", "statement": "In each network, for all numbers of blocks, there are parameters with which exchanging two events that the network can tell apart changes the logit of a given allowed action.", "quantifier": "all batches, all pairs of positions, all pairs of events with well-formed melds, all heads and allowed actions, all numbers of blocks", "why_tests_cant": "existence over weights for every pair of events and positions; irrationality of pi", "anchors": ["MahjongAI/agents/transformer.py:Encoder.forward", "MahjongAI/agents/transformer_conv_ordered.py:Encoder.forward", "MahjongAI/agents/transformer.py:Encoder._get_position_encoding", "MahjongAI/agents/transformer_conv_ordered.py:Encoder._get_position_encoding", "MahjongAI/agents/transformer.py:Head.forward"]}
{"id": "C176", "title": "Which samples a network can tell apart", "statement": "Take two samples, in batches of any size, whose tokens are padding or those of events, and an action that both allow. For every number of encoder blocks and every positive number of decoder blocks, for samples of the same player the ordered network gives the action different logits for some parameters if and only if the states differ or the tokens differ at some position. For samples of two players it does so if and only if the states differ or at some position the events differ when the seats are counted from the player of the sample. The basic and convolutional networks do so if and only if the states differ or at some position the events look different.", "quantifier": "all pairs of samples, batch sizes, heads, allowed actions and numbers of blocks", "why_tests_cant": "existence over real weights in one direction and all weights in the other, for all pairs of event sequences", "anchors": ["MahjongAI/agents/transformer.py:Encoder.forward", "MahjongAI/agents/transformer_conv_ordered.py:Encoder.forward", "MahjongAI/agents/transformer.py:Head.forward", "MahjongAI/agents/transformer_conv_ordered.py:Head.forward", "MahjongAI/agents/transformer.py:Decoder.forward", "MahjongAI/agents/transformer_conv_ordered.py:Decoder.forward"]}
{"id": "C177", "title": "One network tells all samples of a batch apart", "statement": "For every batch, of any size, whose tokens are padding or those of events, every number of encoder blocks and every positive number of decoder blocks there is one choice of the parameters for which any two samples get the same logit for an action that both allow if and only if their states are the same and at each position their events are the same, in the ordered network with the seats counted from the player of the sample, in the basic and convolutional networks as far as the events look different.", "quantifier": "all batches, batch sizes, heads, actions and numbers of blocks", "why_tests_cant": "one choice of real weights for all pairs of samples of batches of any size", "anchors": ["MahjongAI/agents/transformer.py:Encoder.forward", "MahjongAI/agents/transformer_conv_ordered.py:Encoder.forward", "MahjongAI/agents/transformer.py:Head.forward", "MahjongAI/agents/transformer_conv_ordered.py:Head.forward", "MahjongAI/agents/transformer.py:Decoder.forward", "MahjongAI/agents/transformer_conv_ordered.py:Decoder.forward", "MahjongAI/agents/transformer_conv_ordered.py:StateNet.forward", "MahjongAI/agents/transformer.py:StateNet.forward"]}
{"id": "C178", "title": "How many logits can vary freely", "statement": "For all parameters of a network and any 64 actions of a head there is one linear equation, not the trivial one, that the logits of these actions satisfy in every sample of every batch that allows them all: the last vector has 64 entries and is normalised. For any 63 actions and all numbers of blocks there are parameters for which no linear equation holds for all samples.", "quantifier": "all parameters, heads, choices of actions, batches and samples", "why_tests_cant": "an equation that holds for all inputs, and the absence of any other, over real weights", "anchors": ["MahjongAI/agents/transformer.py:Decoder.forward", "MahjongAI/agents/transformer_conv_ordered.py:Decoder.forward", "MahjongAI/agents/transformer.py:StateNet.forward", "MahjongAI/agents/transformer_conv_ordered.py:StateNet.forward"]}
