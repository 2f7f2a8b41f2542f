# Formal model of MahjongAI: design

Source: `/repo` (Python, read as text only). Model and proofs: `/verif/lean`
(Lean 4, a few single Mathlib modules). Properties: `properties.jsonl`.

## 1. Method

* Each Python function that is modelled becomes one total Lean function with a
  comment citing file and lines. Python exceptions are values of
  `PyErr`; a function that can raise returns `Except PyErr _`. Branches are kept
  in source order so the *first* exception raised is the modelled one.
* Mutable arrays become values threaded through a state record. Where Python
  keeps a *reference* to a mutable array (aliasing in `StateObject`) the model
  stores a reference and resolves it against the final state, because that is
  what a reader of the result observes.
* External code (the `mahjong` package's `estimate_hand_value` and
  `Shanten.calculate_shanten`) is an arbitrary function parameter; theorems hold
  for every such function. The same holds for Python's `int` on strings (C168
  shows that what is assumed of it is true), for `process` as seen by the data loader, and for the digits `\d` matches.
* Properties live in `Verif/Props/*`, with definitions of what is meant in
  `Verif/Spec/*`, which do not use the model's helper functions. Lemmas are in
  `Verif/Proofs/*`.
* If the code violates a property, the negation is proved with a concrete
  witness (`..._violated`), and the largest part that does hold is proved as
  `..._partial`.
* Theorems are tested against wrong programs: `seeded/LOG.jsonl` lists edits of
  model definitions made in a scratch copy, the claims they break, the theorems
  that no longer prove, and the theorems that were tightened or added because an
  edit went unnoticed.


## 2. Properties: what is modelled, how it is proved, what came out

| id | modelled | proof | result | theorems (namespace MJ) |
|---|---|---|---|---|
| C01 Chi codes round-trip | Naki.from_chi_info, pattern_chi, from_who, is_* | mask/shift to div/mod, then case split on the finitely many constructor arguments with symbolic code arithmetic | proved | `C01_chi_roundtrip` |
| C02 Pon codes round-trip | Naki.from_pon_info, pattern_pon | same; source seat is an arbitrary Nat | proved | `C02_pon_roundtrip` |
| C03 Kakan, minkan and ankan codes round-trip | from_kakan_info, from_minkan_info, from_ankan_info and their patterns | same; source seat is an arbitrary Nat | proved | `C03_kakan_roundtrip` `C03_minkan_roundtrip` `C03_ankan_roundtrip` |
| C04 Meld codes are classified exactly once or rejected | is_*, _clean | low six bits of an arbitrary Nat decide; is_pon and is_kakan overlap in the code, so the statement with 'exactly one' is refuted and the dispatch-order version is proved | partial | `C04_classification_violated` `C04_classification_partial` |
| C05 Tiles of a decoded meld are physically plausible | get_exposed, pattern_* | div/mod form of each pattern, arithmetic | proved | `C05_exposed_shape` `C05_exposed_range` |
| C06 Canonicalisation is idempotent | _clean_* | div/mod form | proved | `C06_clean_idempotent` `C06_clean_preserves` |
| C07 Generated codes are already canonical | from_*_info, _clean | div/mod; minkan of an ordinary kind with which=0 refutes the full statement | partial | `C07_constructor_canonical_violated` `C07_constructor_canonical_partial` |
| C08 Canonical codes identify melds | _clean_* | canonical form is computed as a function of the abstract meld; refuted for non-red pon, proved for chi, minkan, ankan | partial | `C08_canonical_pon_violated` `C08_canonical_kakan_violated` `C08_canonical_partial` |
| C09 Own-turn meld action numbers are in range and unambiguous | get_during_turn_filter_idx | arithmetic | proved | `C09_during_idx_range` `C09_during_idx_injective` |
| C10 Call action numbers are in range | get_post_turn_filter_idx | arithmetic | proved | `C10_post_idx_range` |
| C11 Call action numbers are unambiguous | get_post_turn_filter_idx | refuted by witness; proved outside the red chi block | partial | `C11_post_idx_injective_violated` `C11_post_idx_type_violated` `C11_post_idx_injective_partial` |
| C12 Discard tokens are decodable | discard2idx and the mask/shift fields of Encoder.forward | shift-or algebra on Nat | proved | `C12_discard_decodable` `C12_discard_injective` |
| C13 Meld, riichi and dora tokens are decodable | naki2idx, reach2idx, new_dora2idx and the fields | shift-or algebra | proved | `C13_naki_decodable` `C13_naki_rejects` `C13_reach_decodable` `C13_dora_decodable` |
| C14 Tokens never collide across event classes or with padding | all four token functions | field extraction is a left inverse, classes differ in a field | proved | `C14_no_collision` |
| C15 The type field of a token names the event type | discard2idx | refuted for discards (EventTypes.NAKI is used), proved for the rest | partial | `C15_type_field_violated` `C15_type_field_partial` |
| C16 Nobody is offered a call on their own discard | decision_mask and its six helper functions | structural: each helper's output is a list built by guarded appends | proved | `C16_offer_lists` |
| C17 Calls point at the discarder and chi is only for the next seat | decision_mask | same, plus Naki round-trips | proved | `C17_source` |
| C18 Every offered pon or open kan is backed by the hand | decision_mask | same | proved | `C18_backed` |
| C19 Every offered chi takes the discarded tile and is backed by the hand | decision_mask | refuted with a concrete hand; proved when the kanchan branch does not use the red five | partial | `C19_chi_takes_discard_violated` `C19_chi_takes_discard_partial` |
| C20 Every possible chi is offered | decision_mask | case analysis | partial | `C20_every_chi_offered_violated` `C20_every_chi_offered_partial` |
| C21 Every possible pon and open kan is offered | decision_mask | refuted at three copies (no pon offered); proved for exactly two / three | partial | `C21_every_pon_offered_violated` `C21_every_pon_offered_partial` |
| C22 A black-five alternative is offered only when a black five is held | decision_mask | refuted; partial | partial | `C22_black_five_violated` `C22_black_five_partial` |
| C23 A logged call is recognised among the offers | decision_mask, _clean, execute loop of process | refuted for open kans and red pon; proved for non-red chi | partial | `C23_recognised_violated` `C23_recognised_partial` `C23_open_kan_never` |
| C24 Ron is evaluated for the right players only | evaluate_ron with the hand evaluator as an arbitrary function | loop invariant over the four seats | proved | `C24_ron_players` `C24_tsumo` |
| C25 Evaluation leaves the hands unchanged | evaluate_ron, evaluate_tsumo | state-passing model; invariant | proved | `C25_hands_unchanged` |
| C26 Melds are handed to the evaluator with the right kinds | meld conversion loop of evaluate_ron/evaluate_tsumo | Naki lemmas | proved | `C26_melds` `C26_red_flag` |
| C27 Hand strings round-trip | hand_tensor2strs | induction over digits | proved | `C27_strings` `C27_strings_injective` |
| C28 Rounds partition the event stream | _get_rounds on an inductive XML tree | induction over the pre-order list | proved | `C28_rounds_partition` `C28_document_order` |
| C29 Bad documents are rejected with the documented error | _get_rounds | same | proved | `C29_rejections` `C29_negative_types` |
| C30 Only standard four-player red-five human games are processed | process prologue | bit lemmas | proved | `C30_only_standard_games` `C30_result_means_standard` |
| C31 Game type fields are independent bits | GameInfo | testBit lemmas | proved | `C31_fields` |
| C32 Remaining dealerships add up | RoundInfo | omega and induction on the number of rounds | proved | `C32_dealerships` `C32_sum` |
| C33 Hand tensors always equal the concealed tiles | the event loop of process as a step function on an explicit state | inductive invariant over the event list | proved | `C33_hand_tensors` |
| C34 Concealed tiles are exactly initial hand plus draws minus discards and exposed tiles | same | invariant against an independent ghost multiset in the spec | proved | `C34_concealed` |
| C35 The player who discards is the one who just drew or called | same | mod-3 invariant of hand sizes | proved | `C35_discarder` `C35_others_rejected` `C35_proviso_needed` |
| C36 Unseen-tile counter is exact | same | invariant against counting functions on the event list | partial | `C36_unseen_partial` `C36_unseen_violated` |
| C37 Per-player unseen-tile counter is exact | same | invariant | partial | `C37_unseen_by_player_partial` `C37_unseen_by_player_violated` |
| C38 Remaining draws counter is exact | same | exact formula proved; the stated property is refuted for rounds with kans | partial | `C38_remaining_draws_partial` `C38_remaining_draws_violated` |
| C39 Riichi sticks conserve points | same | invariant | proved | `C39_points` `C39_stick` |
| C40 Riichi is permanent and double riichi implies riichi | same | invariant | proved | `C40_riichi` `C40_permanent` |
| C41 The closed-hand flag is exact | same | invariant | proved | `C41_menzen` |
| C42 Draws and discards alternate properly | same | invariant | proved | `C42_draws` `C42_discards` |
| C43 One half-turn per draw, two per discard, one per added kan | same, half-turn list as append-only list | invariant against an independent fold | proved | `C43_halfturns` |
| C44 The token stream is the public event sequence | same | invariant | proved | `C44_tokens` `C44_count` |
| C45 Half-turn positions are monotone and in range | same | invariant | proved | `C45_positions` |
| C46 A call decision can see the discard it is about | same | refuted for discards in general; exact position proved | partial | `C46_sees_event_partial` `C46_sees_event_violated` |
| C47 A half-turn records the position as it was | same, with references for the aliased arrays | refuted by a theorem: every half-turn of a player reports the final hand | partial | `C47_snapshot_partial` `C47_snapshot_violated` |
| C48 Snapshot fields do not depend on the future | same | prefix monotonicity of the half-turn list | proved | `C48_resolved` `C48_unmarked` `C48_move_resolves` |
| C49 A winning decision that was taken is marked executed | same | refuted: executed is never set on agari decisions | partial | `C49_win_marked_violated` |
| C50 A call marks only the caller's matching decision | execute loop | list lemmas | proved | `C50_marks` `C50_one_list` |
| C51 Ippatsu is taken into account | same with oracle parameter | refuted by non-interference: oracles that agree on ippatsu=false queries give the same result | partial | `C51_ippatsu_violated` |
| C52 Tenhou and chiihou are considered only at the very start | same | invariant | proved | `C52_tenhou_chiihou` |
| C53 Seat wind given to the evaluator is the winner's | same | refuted: queries carry the same wind for all players | partial | `C53_seat_wind_violated` `C53_seat_wind_partial` |
| C54 A round must end with a result | round epilogue | list reasoning | proved | `C54_ends_with_result` `C54_errors` |
| C55 Rounds are processed independently | outer loop | induction over rounds | proved | `C55_rounds_independent` `C55_round_error` |
| C56 Physically impossible logs are rejected | same | refuted with a concrete accepted log | partial | `C56_impossible_violated` `C56_impossible_partial` `C56_accepted_iff` |
| C57 Full hands include melded tiles | same | invariant | proved | `C57_full_hands` |
| C58 No future tokens in a training row | padding code of the tensor builders | list lemmas | proved | `C58_tokens` `C58_no_future` |
| C59 The recorded discard is an allowed action | discard rows | refuted with a concrete log; partial for the last discard | partial | `C59_discard_rows_partial` `C59_discard_allowed_violated` `C59_held_before_partial` |
| C60 Own-turn labels say what the player did | during rows | refuted; partial | partial | `C60_labels_partial` `C60_labels_violated` |
| C61 Own-turn masks are exact | during rows | list lemmas | proved | `C61_own_masks` |
| C62 Call rows are exact | post rows | list lemmas | proved | `C62_call_rows` |
| C63 A call row shows the deciding player's hand | post rows | refuted: the row uses the discarder's state object | partial | `C63_hand_channel_partial` `C63_hand_channel_violated` |
| C64 Batches contain every row exactly once, in order | prepare_batches / stack_batches | list lemmas | proved | `C64_batches` `C64_empty` |
| C65 Count planes are lossless | threshold encoding | arithmetic | proved | `C65_thermometer` |
| C66 The ordered model sees discards relative to the player | np.roll | modular arithmetic | proved | `C66_ordered` |
| C67 The basic encoder sees who acted | Encoder.forward over abstract tables | refuted: equality of embeddings | partial | `C67_basic_sees_player_violated` `C67_basic_sees_player_partial` |
| C68 The ordered encoder is relative to the viewing player | ordered Encoder.forward | modular arithmetic | proved | `C68_ordered_relative` `C68_ordered_shift` |
| C69 Padding contributes nothing in the ordered encoder | ordered Encoder.forward | bit-field lemmas | partial | `C69_padding_zero` `C69_lookups_violated` `C69_lookups_partial` |
| C70 An epoch visits every valid file exactly once, in order | DataLoader.__next__ with the per-file result as an arbitrary function | induction over the file list | proved | `C70_epoch` `C70_fresh` |
| C71 Batches are full except possibly the last | same | induction | proved | `C71_full` `C71_zero` |
| C72 An assertion failure stops the run | same | induction | proved | `C72_fatal` |
| C73 The newest checkpoint of the right model is resumed | find_latest_checkpoint | fold over the listing, permutation invariance | partial | `C73_highest` `C73_order` `C73_number` `C73_number_only` `C73_ignored` `C73_unanchored_violated` |
| C74 Resuming never repeats or overwrites an iteration | train's resume arithmetic as a transition system with crashes | invariant | proved | `C74_resume` `C74_partial_write_blocks` |
| C75 The learning rate stays within bounds | lr lambda over the reals | Mathlib cosine monotonicity | proved | `C75_bounds` `C75_warmup` `C75_decay` `C75_after_end` |
| C76 The shanten solver restores the hand | ShantenSolver with explicit state | fuel-free well-founded recursion or fuel with monotonicity | proved | `C76_restores` `C76_restores_inner` |
| C77 The shanten search terminates | same | measure | proved | `C77_terminates` `C77_depth_14` `normalValue_fuel` |
| C78 The shanten value is achieved by a decomposition | same | invariant of the search | proved | `C78_decomposition` |
| C79 Value -1 means complete | same | refinement: the search visits the branch that removes the sets | proved | `C79_complete` |
| C80 Kokushi and chiitoitsu distances are correct | solve_kokushi, solve_chitoitsu | refuted for red fives and triples; partial | partial | `C80_chitoitsu` `C80_kokushi_partial` `C80_kokushi_violated` |
| C81 The ordered encoder can tell different events apart | ordered Encoder.forward and the token functions | explicit tables over the integers with weights that make the sum a numeral; injectivity | proved | `C81_ordered_distinguishes` |
| C82 The loader never hands an empty batch to the model | DataLoader.__next__, stack_batches | refuted with a concrete directory; the exception is proved for every variant | partial | `C82_no_empty_batch_violated` `C82_empty_batch_raises` |
| C83 One optimiser step per loss, validation every 1000 games | inner loop of train | induction over the batches | proved | `C83_steps` `C83_every_1000` |
| C84 Validation always uses the same games | estimate_loss | induction over the batches; division with remainder | proved | `C84_validation` `C84_games` `C84_no_loss` |
| C85 Resuming continues the learning-rate schedule | LambdaLR factors of successive runs | refuted by comparing factors; exact list of factors proved | partial | `C85_schedule_continues_violated` `C85_factors_partial` |
| C86 The masked loss does what masking is for | masked_fill and cross_entropy over the reals | exp/log inequalities | proved | `C86_loss_nonneg` `C86_forbidden_probability` `C86_forbidden_label` |
| C87 The fixed encoding tables separate their arguments | _get_position_encoding, _get_player_encoding over the reals | sin/cos periods, irrationality of pi | proved | `C87_positions` `C87_players` `C87_bounded` |
| C88 Value 0 means one tile from complete | ShantenSolver.solve_normal | every leaf of the search is a decomposition and every needed decomposition is a leaf | proved | `C88_tenpai` |
| C89 A hand that only a fifth tile completes is not waiting | same | refuted by kernel evaluation of one hand | partial | `C89_fifth_tile_violated` `C88_tenpai` |
| C90 Red fives do not change the shanten value | ShantenSolver._init, solve_normal | counting argument on the leaf values | partial | `C90_red_violated` `C90_red_never_complete` `C90_red_never_tenpai` |
| C91 The shanten value is the smallest over all decompositions | same | refuted by kernel evaluation; lower bound from C78; upper bound by following an arbitrary split through the search, rearranging blocks where the search takes another one first, with a weight that allows the one bad rearrangement at most once | partial | `C91_minimal_violated` `C91_within` `C91_smallest_partial` `C91_near_partial` `C91_discard` `C78_decomposition` `C79_complete` `C88_tenpai` |
| C92 solve takes the minimum over the hand forms that apply | ShantenSolver.solve | refuted by kernel evaluation; value of solve characterised | partial | `C92_open_hand_violated` `C92_solve_value` |
| C93 A logged meld is read with exactly the tiles that were played | Naki.get_exposed, is_*, from_who, _clean | div/mod form of each pattern against an independent encoder | proved | `C93_tiles` `C93_covers` |
| C94 Each head is evaluated once, on whole, distinct samples | TransformerModel.forward, the loop over the heads | list lemmas about picking rows by a permutation | proved | `C94_samples` |
| C95 Samples of a batch do not influence each other | Encoder, Decoder, StateNet, attention over the reals | every layer commutes with reindexing the batch | proved | `C95_logits_independent` `C95_loss_mean` |
| C96 The validation loss is the mean loss over the validation decisions | estimate_loss | refuted by a small example; equal group sizes otherwise | partial | `C96_validation_mean_violated` `C96_validation_mean_partial` `C96_validation_mean_iff` `C96_no_samples` |
| C97 The best action is always an allowed one | final layer norm, output layer, masking | entries of a normalised vector are at most the square root of its length | proved | `C97_forbidden_below` |
| C98 Padding gets no attention | Head.forward, Encoder.forward | softmax is positive; equal inputs give equal outputs through all blocks | partial | `C98_padding_attention_violated` `C98_padding_alike_partial` |
| C99 Every parameter can influence the output | all layers of the three networks, their parameters one number at a time | softmax of one entry is 1 and ignores a constant; for every other number a model with one path of non-zero weights through it | partial | `C99_influence_violated` `C99_dead` `C99_influence_partial` |
| C100 The network accepts every batch built from accepted games | parser, tensors, batching, embedding, network together | combines C44, C52-C69 with totality of each layer | proved | `C100_network_accepts` |
| C101 Every played round can be turned into tensors, from log to loss | TransformerTensorProcessor.process on parser output | exact success condition of every fold, then invariants of the parser | proved | `C101_builds` `C101_exact` `C101_pipeline` `C101_limit_violated` |
| C102 Logs are read as the games that were played | _get_rounds, tag tests, attribute parsing, split | splitting inverts joining; rounds of a stream are unique; induction over events | proved | `C102_log` `C102_round` `C102_event` `C102_only` |
| C103 Riichi is offered exactly when the rules allow it | draw branch, riichi offer | flags by C40 and C41, tiles by C33 and C34; a poor player as counterexample | partial | `C103_riichi_offer_partial` `C103_points_violated` |
| C104 Closed kans are offered exactly for four concealed tiles | draw branch, closed kan offers | a count of 4 means all four tiles | proved | `C104_closed_kans` |
| C105 Added kans are offered exactly when possible | draw branch, added kan offers | list of offers as a filter of the melds; two counterexample logs | partial | `C105_missed_violated` `C105_impossible_violated` `C105_added_kan_partial` |
| C106 A kan made in the own turn is recognised | N branch, marking | the offer from the last draw survives until the call; invariant: offered codes have source 0 | partial | `C106_closed_kan_partial` `C106_added_kan_never` `C106_added_kan_violated` |
| C107 Recorded melds are the melds on the table | N branch, list of melds | induction along the log; the added kan removes the only pon of its kind | proved | `C107_melds` |
| C108 Dora indicators, discards, sticks and dealer are those of the log | dora, discard, riichi branches and INIT | induction along the log | proved | `C108_table` |
| C109 Double riichi, tenhou and chiihou mean the uninterrupted first go-around | cycles, double_reaches, tenhou, chiihou | without calls the counter is the number of draws; closed kan as counterexample | partial | `C109_double_complete` `C109_double_sound_partial` `C109_double_exact` `C109_double_violated` `C109_first_draw` `C109_chiihou_violated` |
| C110 A self-drawn win is judged by the true hand and table | T branch, evaluate_tsumo, list of melds | C24 for the question, induction along the log for the tiles owned, C107 and C108 for the table | proved | `C110_own_win` |
| C111 A win on a discard is judged by the true hand and table | D branch, evaluate_ron | as C110, seat by seat; the question of a seat is unique | proved | `C111_ron` |
| C112 Robbing an added kan is judged by the true hand and table | N branch, chankan | as C111, with the tile of the added kan | proved | `C112_robbing` |
| C113 The evaluator is told of wins after a kan, with the last tile, and before the first draw | the flags passed to the evaluator | C38 for the wall counter; whole concrete rounds, with evaluators that accept exactly when told, as counterexamples | partial | `C113_last_tile_partial` `C110_own_win` `C111_ron` `C112_robbing` `C113_rinshan_violated` `C113_haitei_violated` `C113_houtei_violated` `C113_renhou_missed_violated` `C113_renhou_wrong_violated` |
| C114 No win on a discard in furiten | the furiten check of evaluate_ron | C108 for the discards; concrete hand with three winning tiles as counterexample | partial | `C114_same_kind_partial` `C111_ron` `C114_furiten_violated` `C114_passed_violated` |
| C115 Legal rounds are accepted | process on a legal log, all events | a specification of legal play from the log alone; each effect exists; the final check follows from the supply of tiles | proved | `C115_accepted` `C115_pipeline` `C56_accepted_iff` |
| C116 The state recorded for a decision is the state of the game | the snapshots of process | induction over the accepted events; each field compared with the log | proved | `C116_draw` `C116_discard` `C116_added_kan` |
| C117 The ippatsu input is right | the ippatsu flags | exact characterisation; a concrete riichi as counterexample | partial | `C117_ippatsu_input_violated` `C117_ippatsu_input_partial` |
| C118 The calls offered are those the hands allow | decision_mask within process | C20-C22 for the hands, C34 for what the hands are according to the log | proved | `C118_offers` `C118_red` |
| C119 A call that is made is marked | the marking of decisions in process | C23 for the hand at the discard; half-turns do not change between discard and call | partial | `C119_call_noticed_violated` `C119_call_noticed_partial` |
| C120 Training samples show the table of the log | build_tensors on the result of process | pair the half-turns with the decision points of the log; C116 for the snapshots, C34, C37, C41 for the shared arrays, C44 for the tokens | partial | `C120_shown_partial` `C120_hand_violated` |
| C121 The winning tile is among the tiles the evaluator is given | evaluate_ron, evaluate_tsumo, hand_tensor2strs; the converter and the evaluator are parameters | C110 and C111 give the strings and the tile; equal hands give equal strings, so one of three copies is always missed; C115 for the round | partial | `C121_violated` `C121_draw_partial` `C121_discard_partial` |
| C122 Only questions about hands that exist are asked | process, evaluate_ron, evaluate_tsumo; the helpers are parameters | show that each question is about a real hand (C57, C110, C111, C113, the supply bounds behind the final assertion), then carry a run over to other helpers step by step; C115 for acceptance | proved | `C122_only_real_hands` `C122_accepted` |
| C123 Logs of legal games train without an exception | the loader, process, build_tensors, forward, the training and validation loops | compose C102 (reading), C122 and C115 (processing), C70 (loader), C101 (tensors and network), C64 and C59 (at least one discard sample), then totality of the two loops | proved | `C123_batches` `C123_epoch` |
| C124 Attention is scaled dot-product attention | Head.forward, MultiHeadAttention.forward | state the conditions on the weights in Spec/Layers, show that softmax satisfies them and that they determine the weights | proved | `Net.C124_weights` `Net.C124_unique` `Net.C124_head` `Net.C124_range` `Net.C124_heads` |
| C125 Layer norm has mean zero and unit variance | nn.LayerNorm | centre and scale as the only solution of two equations | proved | `Net.C125_norm` `Net.C125_unique` `Net.C125_moments` `Net.C125_shift` |
| C126 Blocks are residual: they add a bounded amount | EncoderBlock.forward, DecoderBlock.forward, FeedForward | triangle inequality from C124_range and the bound on layer norm of C97 | proved | `Net.C126_block` `Net.C126_encoder` `Net.C126_decoder_ordered` `Net.C126_decoder_basic` `Net.C126_identity` |
| C127 The order of events is known only through the position codes | Encoder.forward, Decoder.forward | sums over positions do not depend on their order; induction over the blocks | proved | `Net.C127_encoder` `Net.C127_decoder` `Net.C127_events` `Net.C127_blind` |
| C128 The convolution combines a tile with its neighbours in the suit | nn.Conv1d, nn.Conv2d with padding 1 | one filter coefficient per neighbour; compare with the consecutive tiles, finite case analysis | partial | `Net.C128_window` `Net.C128_window2` `Net.C128_shared` `Net.C128_reads` `Net.C128_neighbours_violated` `Net.C128_neighbours_partial` |
| C129 Nothing of the state is hidden from the network | StateNet.forward, Decoder.forward | choose filters that pick out an entry on which the states differ, identity blocks (C126), a layer norm that keeps the sign | proved | `Net.C129_state_net` `Net.C129_logits` `Net.C129_run` |
| C130 Dropout changes numbers only | nn.Dropout with arbitrary factors | the assertions come before the layers; C97 needs the last layer norm only; re-indexing of the samples as for C95; C123 for the epoch | proved | `Net.C130_off` `Net.C130_silenced` `Net.C130_exceptions` `Net.C130_forward` `Net.C130_training` `Net.C130_forbidden_below` `Net.C130_independent` |
| C131 The games that come with the code are played by the rules | the rules as a program; the two logs of the repository, element by element | equivalence of the program with PlayedByRules; kernel evaluation on the 27 rounds; C123 and C130 for the rest | proved | `C131_checker` `C131_test_game` `C131_sample_game` `C131_processed` `C131_trained` |
| C132 The loss is a smooth function of the parameters | all layers of the networks, parameters moving along a curve | a class of functions closed under the operations of the layers (Spec/Moves) contains the loss; continuous and differentiable functions are such classes | proved | `Net.C132_continuous` `Net.C132_differentiable` `Net.C132_rectifier` `Net.C132_other_heads` |
| C133 The gradient raises the recorded action and lowers the other allowed ones | masked_fill, F.cross_entropy | derivative of log-sum-exp; sign of softmax minus indicator; first-order expansion for small steps | proved | `Net.C133_gradient` `Net.C133_direction` `Net.C133_balanced` `Net.C133_forbidden_label` `Net.C133_descent` |
| C134 Training cannot blow up the parameters or the masking | torch.optim.AdamW, the scheduler, checkpoints, per entry | invariant exp_avg^2 <= 53 exp_avg_sq; comparison of the bias corrections; weight decay balances steps of 7.3 at 730; C97 and C130 | proved | `C134_step` `C134_bounded` `C134_untouched` `C134_first` `C134_against` `C134_decay` `C134_constant` `Net.C134_forbidden_below` `C97_small` |
| C135 The shanten value treats suits alike | shanten.py, all of it | the ends of the search are one path through each suit, and a path depends on its suit only (Proofs/ShantenSuits); counts and maxima do not depend on the order | proved | `C135_normal` `C135_solve` |
| C136 The shanten value treats a hand and its mirror image alike | shanten.py:solve_normal | mirror the decomposition that C78 gives and apply C91; the hand of C91 as counterexample | partial | `C136_mirror_violated` `C136_mirror_partial` |
| C137 Every link on a page is found | scrape_data.py:16, the regular expression as a list of matches in order | the first match at a link is the link: lazy and greedy loops stop where what follows matches; induction over the page | proved | `Data.C137_links` `Data.C137_none` |
| C138 The id of a game is the value of the parameter log | scrape_data.py:19-22 | first piece behind the = of the prefix; two takeWhile agree iff neither stops | partial | `Data.C138_gid` `Data.C138_value_violated` `Data.C138_value_partial` `Data.C138_plain` |
| C139 One file for each game that could be downloaded | scrape_data.py:9-37 | induction over the links; a later write of the same id has the same content | proved | `Data.C139_files` `Data.C139_order` `Data.C139_once` `Data.C139_loader` |
| C140 Only pages of the wanted kind are left for the scraper | filter_raw.sh | the names in the pattern are distinct and so are their stems; follow one entry through the loop | partial | `Data.C140_kept` `Data.C140_unpacked` `Data.C140_only` `Data.C140_pages_violated` `Data.C140_pages_partial` |
| C141 No peeking: samples do not depend on tiles the player cannot see | process_xml.py:process and the builders of the tensors, on pairs of runs | relation between states that look the same to the player, kept by every event (Proofs/View); a sample is a function of what the relation keeps; two rounds with different draws of the discarder as counterexample | partial | `C141_decisions` `C141_own_partial` `C141_calls_violated` `C141_calls_partial` |
| C142 The seats are treated alike | process_xml.py:process and the builders of the tensors, on a run and the run moved on | relation between states, kept by every event (Proofs/Seats); the call offers and the order of deciders depend on differences of seats only; C56 for acceptance; two evaluators that accept on one flag as counterexamples | partial | `C142_accepted` `C142_decisions_partial` `C142_samples_partial` `C142_renhou_violated` `C142_closedKan_violated` |
| C143 Counting in float32 loses nothing | process_xml.py:process, decision.py, agari.py, with rounding (Model/RoundFloat) | every count is at most 57 + 4 per event; below 2^24 rounding is the identity; a product rounds to 0 only if it is 0; sums of small numbers in any order by induction over the way of adding up | proved | `C143_counts_exact` `C143_any_rounding` `C143_float32_exact` `C143_float32_limit` `C143_sums_exact` `C143_counts_small` `C143_orders_covered` |
| C144 The network is given the samples and nothing else | TransformerModel.forward on the built tensors | C64 for the samples, C94 for the selection, C95 for the independence; a relation between a sample and a one-sample input that names every entry by lookup, not by default | proved | `C144_determined` `C144_alone` `C144_games` `C144_validation` |
| C145 The arguments of the training program choose exactly one network | supervised_learning.py: main program, train up to the loaders (Model/Command) | case split over the nine names; loaders succeed iff each listing does | proved | `C145_names` `C145_distinct` `C145_layers` `C145_class` `C145_prepared` `C145_job` |
| C146 No game is both trained and validated on | supervised_learning.py: loaders and their choice | the directories have the same length and are distinct, so paths in them differ; C74 for histories; number of i < N in a residue class by induction | proved | `C146_files` `C146_disjoint` `C146_apart` `C146_games` `C146_even` |
| C147 The training program runs through on legal games, and what stops it stops it for good | supervised_learning.py: main program and train (Model/Program) | induction over the iterations; C145 and C146 for the files, C123 for an iteration, C72 for the assertion, DirOk (C74) for the checkpoints | proved | `C147_runs` `C147_outcome` `C147_blocked` `C147_assertion_blocks` `C147_is_run` |
| C148 Masking is exact in float32 | masked_fill, F.cross_entropy with rounding (Model/LossFloat) | rounding to nearest is monotone and keeps numbers of the format; -10^9 is one; exp of less than -104 is zero and adding zero changes nothing, in any order; from 2^29 on numbers are multiples of 64, so smaller summands disappear | proved | `C148_allowed_only` `C148_probabilities` `C148_bounded` `C148_forbidden_label` `C148_batch` |
| C149 The samples are stored without loss in float32 | storing the tensors as float32 (Model/SampleFloat), buildTensors, prepareBatches | invariant on every state and recorded state object: all numbers at most 2·10^6 plus ten per event, tokens at most 2^17; the rows of C58-C64 consist of these; float32 is exact up to 2^24 | proved | `C149_stored_exactly` `C149_joined` `C149_prepared` `C149_limit` |
| C150 Every row of the embedding tables can be used | Encoder.forward up to the blocks, with the tokens of process_xml.py | the fields of a token of a sample by cases over the events (the numbers that no call has from the closed forms of C10); each masked lookup by cases; for the other rows a witness event per row, checked by evaluation in the kernel | partial | `C150_rows_violated` `C150_rows_partial` `C150_dead` `C150_samples` `C150_network` |
| C151 Each loss is computed with the parameters left by all losses before it, and training changes only what it should | train and TransformerModel.forward together (Model/Learning): generator, optimiser, scheduler, checkpoints | a relation between consecutive losses, by induction over batches and heads; reading a number after changing all of them, by cases over the kinds of numbers; C134 for one number; C123 and C130 for the absence of exceptions; C99_dead | proved | `Net.C151_interleaved` `Net.C151_trains` `Net.C151_numbers` `Net.C151_forbidden_below` `Net.C151_first` `Net.C151_untouched` `Net.C151_dead` |
| C152 Call samples are right for any decisions | _build_post_tensor: the loop over the decisions of a player | each pass marks pass and one more number; the masks as sets of numbers | proved | `C152_sample` `C152_accepts` `C152_fourth` `C152_shared` |
| C153 The suits are treated alike | process_xml.py:process and the builders of the tensors, on a run and the run with the suits exchanged | relation between states, kept by every event (Proofs/Suits); the map on meld codes agrees with the map on the melds they encode (code_encode); the offers by cases over the position in the suit; closed kans up to their order; C56 for acceptance; a round with a false offer of an added kan as counterexample | partial | `C153_accepted` `C153_decisions` `C153_samples_partial` `C153_kans_offered` `C153_addedKan_violated` `C153_actions_violated` |
| C154 Copies of a tile are interchangeable | process_xml.py:process and the builders of the tensors, on a log and the log with the copies renamed | the two runs in lockstep (Proofs/Copies): the table of held tiles is permuted, everything else is equal; calls by their codes (Proofs/CopyCodes); three concrete rounds as counterexamples; the condition on pons proved exact | partial | `C154_round_partial` `C154_samples_partial` `C154_no_calls` `C154_one_call` `C154_told_exact` `C154_label_violated` `C154_token_violated` `C154_added_kan_violated` |
| C155 The honours are treated alike | process_xml.py:process and the builders of the tensors, on a run and the run with the honours exchanged; draw.py: action numbers of calls | instance of the relation of C153 with the suits fixed; every offered code is well formed (offersWf_reached), so the action number of the exchanged call is a function of that of the call (called_honours); a round with a pon of East as counterexample | partial | `C155_decisions` `C155_samples_partial` `C155_kans_offered` `C155_addedKan_violated` `C153_accepted` |
| C156 The planes of a sample fit together | process_xml.py:process, tables hand_tensors, remaining_tiles_pov, sutehai_tensors; x1 of the three formats | one invariant of the sum of hand, unseen and face-up tiles over the events (balance_sum), one for the discards shown (thrown_reached); reading the planes back with C65; the round with a kan and a red indicator as counterexample | partial | `C156_balance_partial` `C156_balance_violated` `C156_same_for_all` `C156_samples` |
| C157 Low and high tiles are treated alike when calls are offered | decision.py: decision_mask and the five functions it calls, on a hand and its mirror image | from the exact description of the offers (offers_cases): lowest number n becomes 6-n, position w becomes 2-w; in rounds through the concealed hands of the log (C34) | proved | `C157_offers` `C157_rounds` |
| C158 The tokens tell what happened | the token functions and the order of the tokens in process | explicit numbers for the five types of melds; numbers plus called kind determine type, kinds and red flag by arithmetic; induction from the end over two logs, the kind called being that of the last discard told | partial | `C158_tale_partial` `C158_rounds_partial` `C158_rules_partial` `C158_discard_violated` `C158_pon_violated` |
| C159 The training log tells what was done | train and estimate_loss with log_message, DataLoader with log_func and batch_count, loaders kept from iteration to iteration (Model/TrainLog) | simulation of the program with fresh loaders; the lines of a completed pass and run in closed form; how often a part was used by counting residues | partial | `C159_run` `C159_marks` `C159_saved` `C159_next` `C159_rates` `C159_numbers_partial` `C159_eight` `C159_skipped` `C159_numbers_violated` |
| C160 The shanten value counts the tiles that are missing | ShantenSolver.solve_normal (Model/Shanten) | from k sets and a pair, the parts that are in the hand form a decomposition whose distance is bounded by the missing tiles; from a decomposition that uses the whole hand, completing its blocks gives k sets and a pair; with C91 | partial | `C160_smallest` `C160_value_partial` `C160_exchanges` `C160_draw` `C160_value_violated` |
| C161 solve counts the tiles missing to the nearest form | ShantenSolver.solve (Model/Shanten) | counting kinds held once and twice; choosing the seven kinds with most tiles; C92 and C160 | partial | `C161_pairs` `C161_orphans` `C161_solve_partial` `C161_solve_violated` |
| C162 The printed forms show what they are meant to show | __repr__ of Naki, the decisions, the half-turns, GameInfo, RoundInfo and the results (Model/Printing) | texts that can be read back from the left, closed under literals, numbers followed by no digit, and bracketed lists | proved | `C162_melds` `C162_turns` `C162_game` `C162_round` `C162_results` `C162_numbers` `C162_list` |
| C163 Verbose output tells the rounds and changes nothing | process with verbose (Model/Printing) | the loop with output, compared with the loop without; the lines of a round in closed form | partial | `C163_same` `C163_lines` `C163_announced` `C163_header` `C163_kept` `C163_turns_violated` |
| C164 Codes of positions and seats depend on distances only | _get_position_encoding, _get_player_encoding (positionTable, playerTable) | entries as sine and cosine of position times speed; addition theorems; cos x - cos 3x = 4 cos x sin^2 x for the seats | partial | `C164_speeds` `C164_circles` `C164_alike` `C164_shift` `C164_seats` `C164_seats_partial` `C164_seats_violated` |
| C165 A new network guesses among the allowed actions | _init_weights (Model/Fresh), run, runDrop | the last normalisation bounds the length of the vector by 8 (C125); Cauchy-Schwarz; bounds of log-sum-exp | proved | `Net.C165_logits` `Net.C165_sample` `Net.C165_probability` `Net.C165_loss` `Net.C165_padding` `Net.C165_no_events` |
| C166 In evaluation the order of games, samples and batches does not matter | prepareBatches, forward, runRows, valLoss | choice of the function from C144 and C144_determined; permutations of lists under map, flatMap, zip and sum | proved | `C166_function` `C166_samples` `C166_parts` `C166_prepared` `C166_games` `C166_validation` |
| C167 A checkpoint fits only the network it was made for, and holds all of it | state_dict, load_state_dict, the ends of the four files (Model/StateDict) | keys as lists of names; the shapes of a key that decides the network; sizes of products and sums; loading is an update that ignores the old number, C150 for the table rows that do not exist | partial | `C167_keys` `C167_load` `C167_rejected` `C167_names` `Net.C167_restored` `C167_numbers` `C167_count` `C167_printed_partial` `C167_printed_violated` |
| C168 Numbers are read as they are written | int on texts (Model/PyInt) | the scan with underscores as a grammar, both directions by induction; digits of a number from Nat.toDigits | proved | `C168_int` `C168_decimals` `C168_unique` `C168_tags` |
| C169 Verbose evaluation of wins tells who is furiten and changes nothing, and the examples work | evaluate_ron and evaluate_tsumo with verbose, the scripts at the end of agari.py and shanten.py (Model/Examples) | the loop with output, compared with the loop without; the hand is restored in every pass; C76, C79, C92 for the search | proved | `Printing.C169_same` `Printing.C169_lines` `Printing.C169_agari` `Printing.C169_shanten` |
| C170 The reported loss tells how well the network predicts | Net.run, forward and the rows of a round (Model/Network, Model/Tensors) | the logarithm of the sum lies between the largest allowed logit and that plus log n; sum over the samples with C144; forbidden labels counted with C59, C60, C62; float32 with C148 | partial | `C170_sample` `C170_batch` `C170_round` `C170_games_partial` `C170_calls_partial` `C170_reported_violated` `C170_repair` `C170_usual` `C170_steps` `C170_validation` `C170_told` |
| C171 A round gives a bounded number of samples | halfturns and rows of a round (Model/Round, Model/Tensors) | count half-turns by events (C43); tiles left, sizes of hands and number of sets bound draws, discards and tokens (C101) | proved | `C171_draws` `C171_played` `C171_samples` `C171_padding` `C171_games` |
| C172 How much of the attention goes to the padding | Head.forward on the embedded tokens of a sample (Model/Network, Model/Fresh) | equal vectors stay equal through the blocks (C98), so the sum of exponentials splits into padding and events; the fresh normalisation bounds lengths by 8 (C125) and Cauchy-Schwarz bounds the scores; C171 for the number of padding positions | proved | `Net.C172_share` `Net.C172_new` `Net.C172_size` `C172_positions` `C172_round` |
| C173 The basic and convolutional networks can tell different events apart | Encoder.forward up to the blocks (embedBasic), with the tokens of process_xml.py | the fields of a token by cases over the events; the inverted masks evaluated case by case; tables that write each part in digits of its own; ranges of the call numbers from C10 | partial | `C173_embedding` `C173_exact` `C173_pons_violated` `C173_drawn_violated` `C173_padding` `Net.C173_network` `Net.C173_separates` |
| C174 In the ordered network every event can count | Encoder.forward and Decoder.forward of the ordered network, with FixedTables | tables that write each part of a token in digits of its own, the code of the player on the first two coordinates; one reading block carries the difference to the logits (Proofs.InfluenceNet) | proved | `Net.C174_separates` `Net.C174_padding` |
| C175 The order of the events can count | Encoder.forward, Decoder.forward, Head.forward | a head whose scores see the positions but not the two players: one of four directions in the first two coordinates, along which all positions differ because pi is irrational | proved | `Net.C175_order` `Net.C175_basic` |
| C176 Which samples a network can tell apart | Encoder.forward, Head.forward, Decoder.forward | if no attention with linear scores and values told two sequences apart, their sums of exponentials would agree for all scores (equal logarithmic derivatives); characters are linearly independent, so each embedding of one sequence would occur in the other; the codes of positions and events exclude that | proved | `Net.C176_ordered` `C176_seats` `Net.C176_basic` |
| C177 One network tells all samples of a batch apart | Encoder.forward, Head.forward, Decoder.forward, StateNet.forward | the difference of two logits is, along each line in the space of the parameters used, an analytic function; each is not zero somewhere (C176), so by induction over the pairs there is a point where none is zero; on finitely many samples the state network can compute any linear function of the state if the biases are large; the last normalisation is injective on vectors with one entry | proved | `Net.C177_ordered` `Net.C177_basic` |
| C178 How many logits can vary freely | Decoder.forward, StateNet.forward | the normalised numbers have the sum zero, so the logits are affine functions on a space of dimension 63, and 64 such functions are dependent up to a constant; conversely a state network that copies can yield all 64 unit vectors, whose logits determine the coefficients | proved | `Net.C178_equation` `Net.C178_sharp` |

### Notes, and where code and property disagree

Claims marked *partial* are false of the unchanged code unless said otherwise: a `..._violated` theorem is a proof of the negation, the other theorems of the claim say exactly what holds instead.

* **C01** (proved): All constructor arguments.
* **C02** (proved): All kinds, flags and source seats.
* **C03** (proved): All kinds and flags.
* **C04** (partial): The full statement is false: code 0x18 is a pon and a kakan. Proved for codes where bits 3 and 4 are not both set.
* **C05** (proved): Shape for every code, tile range for every well-formed code.
* **C06** (proved): Every code the constructor accepts.
* **C07** (partial): Fails for open kans of ordinary kinds with which = 0; proved for everything else.
* **C08** (partial): Fails in both directions (plain pons, added kans of fives); exact characterisation proved for the rest.
* **C11** (partial): Action numbers collide for chis with the red five from the hand; injective otherwise, up to the red flag of pons.
* **C15** (partial): Every discard token carries the NAKI constant; all other events are right.
* **C16** (proved): Also shows decision_mask never raises on a real kind.
* **C19** (partial): False for the middle wait 3_5/5_7 with the red five held (the code names the wrong called tile); proved in all other cases.
* **C20** (partial): Every run is offered; the called tile is wrong in the same middle-wait case.
* **C21** (partial): False with three copies (no pon offered); exact condition proved.
* **C22** (partial): The red version is exact; the black version looks at the count of the discarded kind. Exact condition proved.
* **C23** (partial): False; exact condition under which a legal logged call is recognised.
* **C24** (proved): Also pins down the question put to the evaluator (hand plus winning tile, melds, dora, flags); the evaluator is a parameter.
* **C25** (proved): evaluate_tsumo has no write to the tensors; in the model it returns no tensors.
* **C29** (proved): A negative game type is read like Python's & reads it, in two's complement.
* **C35** (proved): With the proviso that closed and added kans are made by the player who has just drawn (the code does not check `who` there).
* **C36** (partial): False for red-five indicators turned during the round: only the kind slot is decremented. Exact value proved.
* **C37** (partial): Same defect as C36; exact value proved.
* **C38** (partial): False: kans and new indicators are subtracted too. Exact value proved.
* **C46** (partial): False for every discard: the post-turn's position is the index of the discard's own token. Holds for added kans.
* **C47** (partial): False: hand, unseen tiles, closed flags and melds are stored by reference. The copied fields are proved fixed; a concrete pair of continuations shows the shared fields change.
* **C49** (partial): False: no win decision is ever marked executed in any reachable state.
* **C51** (partial): False: with any evaluator the result equals the one with the ippatsu question always answered no, for logs in which riichi is declared by the player who has drawn.
* **C53** (partial): False: all players are evaluated with the wind of round number mod 4.
* **C56** (partial): False: only the drawer's own hand is checked. C56_accepted_iff says exactly which logs with documented meld codes are accepted.
* **C58** (proved): The theorems cover every row of all three heads, for half-turn lists with four decision lists per post-turn (proved for all accepted logs); build_tensors raising is a value.
* **C59** (partial): False: the mask is computed from the hand at the end of the round (shared array). Mask and label are characterised exactly; at the time of the discard the kind is in the hand.
* **C60** (partial): False: the label is 2 (riichi) whenever no kan is executed, whatever the player did, even when the mask forbids riichi. The actual label is characterised exactly.
* **C63** (partial): False: all deciders get the hand of the player of the attached state object (the player who moved).
* **C67** (partial): The player embedding is masked out for discards, melds and riichi for all tables; exact characterisation of when the player is visible.
* **C69** (partial): Lookups stay in range for tokens the processor produces, not for every 64-bit value.
* **C70** (proved): process is an arbitrary function from file names to results or exceptions; exceptions outside Exception are not modelled.
* **C73** (partial): Proved for all files the wildcard does not match and all proper checkpoints. False for other files the wildcard matches: the regular expression is not anchored, so backup files count.
* **C74** (proved): Files not matched by the wildcard may be in the directory. A checkpoint cut off while being written blocks resumption (second theorem); loading an incomplete file is modelled as raising.
* **C75** (proved): Over the reals; floating point is not modelled.
* **C77** (proved): Fuel stands for the recursion depth.
* **C80** (partial): The seven-pairs part holds. The thirteen-orphans part is false when a terminal or honour is held three times (2 is subtracted, so 12 kinds look complete), when none is held (14), and with a red five of characters, which YAOCHU_TENSOR includes; proved otherwise.
* **C82** (partial): False: when the last files of a directory are skipped, the last batch is empty, and the basic and convolutional models raise on it.
* **C85** (partial): False: the scheduler is created anew in every run and its state is not saved.
* **C86** (proved): One sample, over the reals.
* **C87** (proved): Over the reals.
* **C89** (partial): False: after taking a triplet of four equal tiles the search also continues without the fourth tile, which bypasses the correction for it. C88 says exactly which hands get value 0.
* **C90** (partial): False: a red five is counted twice in the sum that gives the number of called melds. Every hand of 3k+2 tiles with a red five gets at least 1, every hand of 3k+1 tiles with two gets at least 2.
* **C91** (partial): False for three tiles of one kind beside two of each of the next two kinds. For every legal hand of at most 14 tiles the value is the smallest distance or one more, and exactly the smallest if no kind is held three times beside two of each of the next two; a discard lowers it by at most one. Exact for complete and waiting hands (C79, C88).
* **C92** (partial): False: both formulas are also applied to open hands. solve is the minimum of the three values.
* **C96** (partial): False: the mean loss of each head in each batch counts the same, whatever the number of samples. It is the mean over the decisions, whatever the losses are, exactly if all of them have equally many samples. It raises exactly if there are no samples at all.
* **C97** (proved): The parameters of the final layer norm and output layer are assumed not to be astronomically large (absolute value at most 1000 is enough).
* **C98** (partial): False: there is no attention mask, so every padding position always has positive weight in every head. In the ordered model all padding positions of a sample have the same encoder output and weight.
* **C99** (partial): False: in the ordered model the key and query parameters of the self-attention layers of the decoder have no influence, because the sequence has length one; in all models the biases of the keys have none, because softmax does not change when a constant is added, and the dead rows of the tables (C150). Proved: exactly these single parameters have no influence (C99_influence_partial, for models with at least one decoder block); they have none with dropout either (C99_dead). Tables of positions and players are not trained and not counted. Real numbers instead of floats; of GELU only that it is not constant.
* **C103** (partial): False as to points: riichi is also offered to a player with less than 1000 points. The other three conditions are exact.
* **C105** (partial): False in both directions: the code looks up the number of the kind in a table indexed by tile, so a possible added kan is missed and an impossible one is offered. The third theorem says exactly what is offered.
* **C106** (partial): Holds for closed kans. False for added kans: one whose code names the seat of the pon is never recognised, because offered codes name none.
* **C109** (partial): Real double riichi is always recognised, tenhou is exact, and all is exact as long as nobody calls. C109_double_exact says exactly when double riichi is recorded. False after a closed kan: a later riichi counts as double, and a later draw as chiihou.
* **C111** (proved): The hand evaluator itself is a parameter.
* **C113** (partial): False for all four flags; C110 to C112 say exactly when they are set. is_rinshan and is_houtei never are. is_haitei is right for draws as long as there is no kan and no new indicator, else early. is_renhou compares the number of draws with the seat number.
* **C114** (partial): Only the kind of the discard itself is checked. False otherwise: the win is offered though another winning tile was discarded, or a winning discard was let pass.
* **C115** (proved): For evaluators and shanten calculators that answer every question.
* **C116** (proved): The ippatsu flags are the subject of C117.
* **C117** (partial): False: the flag goes off with the next player's draw. When it is set is proved.
* **C119** (partial): False for many calls. C119_call_noticed_partial says exactly which calls are marked.
* **C120** (partial): False for the hand, the unseen tiles and the closed hands, which are those at the end of the round. C120_shown_partial says for every entry of tokens and state what it shows.
* **C121** (partial): False for every converter and every evaluator that wants the winning tile among its tiles: a legally drawn tile that completes a triplet, three sequences and a pair is not offered as a win. The partial theorems say that the kind of the winning tile is always there and, for a converter that takes first copies, exactly when the tile itself is.
* **C122** (proved): The conditions on the log: own-turn kans follow the own draw, codes are those of melds, calls take the tile just discarded, added kans extend an own pon.
* **C123** (proved): Over the reals, evaluation mode; for training mode see C130. That the last log must be of a usable game is necessary for the basic and the convolutional models (C82).
* **C124** (proved): Over the reals.
* **C125** (proved): Over the reals.
* **C126** (proved): Over the reals, evaluation mode.
* **C127** (proved): Over the reals, evaluation mode. The sums of floating-point numbers depend on the order by rounding.
* **C128** (partial): False: nine of a suit and one of the next, the honours and the red fives are neighbours for the convolution, and a red five is not next to the four and six of its suit. C128_neighbours_partial lists all wrong and missing pairs.
* **C129** (proved): The parameters may depend on the two samples. C129_run is about whole runs of the networks, with the mask and in batches of any size. Which states the processor gives is another matter (C47, C120).
* **C130** (proved): The factors are arbitrary numbers; their distribution is not modelled.
* **C131** (proved): The logs are written into Data/ by a script from the files in the repository. Data/UnitTests has the tests of the repository and the outputs recorded in its notebooks as examples.
* **C132** (proved): Over the reals. The activation gelu is any continuous (differentiable) function.
* **C133** (proved): Labels that are not allowed do occur (C59, C60); C133_forbidden_label says what they do.
* **C134** (proved): torch.optim.AdamW is modelled by its documented formulas with the default settings. The parameters are assumed to be at most 730 at the beginning (the initialisations of PyTorch are far below).
* **C135** (proved): The slots of the red fives are left as they are.
* **C136** (partial): False: three ones beside two twos and two threes are judged worse than three nines beside two eights and two sevens. The values differ by at most one, and only if the hand or its mirror image has this pattern.
* **C137** (proved): The regular expression is modelled by the list of its matches in the order in which re tries them.
* **C138** (partial): False: for an address with a further parameter, such as ...&tw=0, the id is the text up to the next equals sign. It is right exactly if the rest of the address has no = and no &.
* **C139** (proved): Network and file system are modelled as functions; a name with a slash makes open raise.
* **C140** (partial): False for hidden pages: the pattern of the script does not match them and os.listdir lists them. Right exactly if there are none. gunzip is a function of the content and does not overwrite.
* **C141** (partial): False for the call head: its samples show the hand and the unseen tiles of the player who discarded. Tokens, decisions, and the samples of the own-turn and discard heads are independent of hidden tiles (if kans in one's own turn are declared by the player who drew); two call samples at the same point differ in the first two planes only.
* **C142** (partial): False in two places: is_renhou compares the count of turns with the seat number of the player who discards (process_xml.py:471), and a closed kan adds the seat number of its maker to the count of turns (process_xml.py:170), which the next is_chiihou depends on. True otherwise: for evaluators that ignore is_renhou, in rounds without closed kans.
* **C143** (proved): For rounds with hand lists and event lists of up to 100000 entries each. Overflow of float32 (from 2^128 on) is not modelled; it is out of reach.
* **C144** (proved): Every number that enters the network is an entry of the sample; over the reals, evaluation mode.
* **C145** (proved): Python's int on a text and the listing of directories are parameters; loading the checkpoint is in C73 and C74.
* **C146** (proved): That the files of a year begin with the year, as the ids of the games do, is an assumption of C146_games only.
* **C147** (proved): Joins C145, C146, C123, C83, C72, C74. For C147_runs the last file of each directory must be a game that is used (see C82), and the helpers must answer for hands that exist.
* **C148** (proved): Masking and loss only; the layers before are not modelled with rounding. That such an arithmetic exists is proved (ideal_float32). Overflow is out of reach by C148_bounded.
* **C149** (proved): The bound on the log numbers is needed (C149_limit); real scores are a few thousand at most.
* **C150** (partial): False; the dead rows are listed exactly for each variant: in the basic and convolutional models the types but one, the players but one, 3 rows of own-turn actions and 57 of calls; in the ordered model one type, the three red fives, tsumogiri 0, 3 own-turn and 10 call rows.
* **C151** (proved): Over the reals. loss.backward() is a parameter; that the partial derivatives satisfy what C151_dead and C151_untouched suppose about it is proved (example after slopes).
* **C152** (proved): The parser never offers riichi after a discard, so the shared number does no harm at present.
* **C153** (partial): False in one place: an added kan is offered iff the player holds the tile whose number is that of the kind, always a tile of the characters (process_xml.py:367-379), so the offered kans, and with them the own-turn samples, are not exchanged in rounds with a pon of a kind k unless tile k becomes the tile with the number of what kind k becomes (PonsKept). Everything else is: tokens, wins, riichi, calls, the samples of the discard and the call head in all rounds, of the own-turn head in rounds where pons are only of such kinds. The samples of the call head are described by the calls they allow, as no renumbering of the actions can do it (C153_actions_violated): the numbers of two calls with a red five in different suits can be the same (C11).
* **C154** (partial): False in three places. (1) A pon without a red five is recognised as the offered one only if the called tile is the first of the three copies, so the label depends on the copy (draw.py: clean_pon keeps the position of the called tile). (2) The token of a pon with a red five depends on whether the called tile is copy 3. (3) An added kan is offered iff the player holds the tile whose number is that of the kind, so which copies of the first nine kinds are held matters. Elsewhere it holds: C154_samples_partial supposes exactly that these readings agree (Told, exact by C154_told_exact), and that tiles 0 to 33 keep their names if there is a pon. The evaluator is supposed not to look at the copies.
* **C155** (partial): False in one place: whether an added kan of an honour is offered depends on a tile of the characters (27 for East, 28 for South, ...), so in rounds with a pon of an honour that becomes another one the own-turn samples differ. Everything else holds without exception, and here, unlike for the suits, masks and labels of the call head are exchanged number by number. The prevailing and own wind are no input of the model, only of the evaluator, whose answers are supposed to be exchanged along. Acceptance is C153_accepted, which includes the honours.
* **C156** (partial): False in one place: a red five turned over as a later indicator is still counted as unseen in its red slot (as in C37), so there the indicators after the first have to be left out of the sum. The rest holds without exception: four of each kind at every moment, the same sum for all players, and the planes of every sample.
* **C157** (proved): The offers are compared as sets of melds (type, source, kinds from the hand, kind called, red five). The mistakes of the offers (C19, C20, C22) are symmetric as well: the wrongly named tile of a middle wait exists at both ends.
* **C158** (partial): Exact: two rounds have the same tokens iff they agree in everything but red fives, where for a chi the red five from the hand is told, and for a pon only if the called tile is the fourth copy. C158_discard_violated and C158_pon_violated: red and black fives are not told apart for discards and other pons. The ambiguous numbers of C11 are resolved by the kind of the discard before the call.
* **C159** (partial): C159_numbers_violated: a loader counts its calls over all iterations of a run, including the call that ends a loop, and reset does not set the count back; so the second pass over a part of n batches is numbered from n+2. C159_numbers_partial: exact numbers, (m/8)(n+1)+1 and following in the m-th iteration of a run; C159_eight: right in runs of at most eight iterations. Times and logged values are left out.
* **C160** (partial): C160_smallest, C160_exchanges and C160_draw hold without exception. C160_value_partial: the value of the search is one less than the number of missing tiles, or equal to it; it is one less unless a kind is held three times beside two of each of the next two. C160_value_violated: a hand with this pattern that lacks one tile and has value 1. A fifth tile of a kind counts as possible (see C89).
* **C161** (partial): C161_pairs and C161_orphans: exact numbers of missing tiles for the two special forms. C161_solve_partial: for hands with tiles of at least seven kinds, some terminal or honour and none of them three times, and without the pattern of C160. C161_solve_violated: five pairs and three of a kind get the value 0, but two tiles are missing, since the code does not ask for seven different kinds.
* **C162** (proved): Texts are lists of characters. For a meld of no known type the text is the same for all; C09 and C11 say which melds have the same number.
* **C163** (partial): C163_turns_violated: the number of half-turns is always given as 0, since the list that is counted is never filled. What numpy prints for arrays is a parameter. The rest is C163_same, C163_lines, C163_announced, C163_header and C163_kept.
* **C164** (partial): C164_seats_violated: seats are arranged in a circle, but in the table of seat codes 3 and 0 are less alike than 0 and 1, since only the first circle closes after four seats (C164_seats_partial). C164_seats gives the exact number. For positions everything holds. Over the reals.
* **C165** (proved): Over the reals. The weights are arbitrary; that r is about 0.16 for the distribution that is drawn from is not part of the claim.
* **C166** (proved): Over the reals: the sum of a mean does not depend on the order there. In which batch a game is does matter for the validation loss (C96).
* **C167** (partial): C167_printed_violated: two of the four files end in an exception when run: transformer_conv_large.py calls a class that is not defined there, transformer_conv_ordered.py leaves out the number of layers. The other two print the number (C167_printed_partial). The rest holds without restriction, over the reals.
* **C168** (proved): Which characters outside ASCII are digits or white space is arbitrary. The limit of 4300 digits in new versions of Python is left out. Negative numbers are read here; in the model of the rounds they count as unreadable where a seat, tile or code is expected.
* **C169** (proved): The library and what it and numpy print are parameters.
* **C170** (partial): False for draws and discards, because of C59 and C60; the loss is characterised up to a bound, from the log and the last two layers. It holds for calls. C170_told: in any training the loss of a single sample is above 6.5e8 iff its label is forbidden.
* **C171** (proved): Really played: kans by the player who has drawn, well-formed meld codes, four scores, at most four riichi (as in C101).
* **C172** (proved): Over the reals, evaluation mode. C172_size gives bounds in both directions for any weights. That the weights that are drawn stretch no vector by more than a fifth is likely but not certain; it is a hypothesis.
* **C173** (partial): False. C173_exact: two events have the same embedding for all tables iff they look the same: players are never seen; all pons look the same, and with them the open kans of the first eight kinds and the chis with numbers from 70 on; tiles 25 to 36 (honours, red fives, 8 and 9 of bamboos) look the same when discarded after being drawn. All other events are told apart. C173_padding: padding has a nonzero embedding, the same at all positions. C173_network: logits and loss stay the same for all parameters when events are replaced by others that look the same; C173_separates: replacing one event by one that looks different changes the logit of any given allowed action for some parameters, in all batches.
* **C174** (proved): The parameters may depend on the two events. The basic and convolutional networks do not have this (C173).
* **C175** (proved): The parameters may depend on the two events and their positions. In the ordered network all events with different tokens, in the others all that look different; exchanging events that look the same never changes anything (C173_network).
* **C176** (proved): The parameters may depend on the two samples. What the events of the basic and convolutional networks look like is Look (C173).
* **C177** (proved): The parameters depend on the batch. Numbers are real: nothing is said about how far apart the logits are.
* **C178** (proved): C178_equation says something for the own-turn head (71 actions) and the call head (154 actions); the discard head has only 37 actions. The samples of C178_sharp have arbitrary numbers as state. Over the reals.

## 3. Trusted base

* The Lean 4 kernel. Axioms: at most `propext`, `Classical.choice`, `Quot.sound`
  (list per theorem below). No `sorry`, no `native_decide`, no `bv_decide`.
* The correspondence between the Lean definitions and the Python text (checked
  by reading; each definition cites its lines). The code was not run.
* Counters (hand tensors, remaining tiles) are integers in `Model/Round`; that this
  agrees with the `float32` arrays of the code is C143.
* Integers read from a log are natural numbers where the code expects one; a
  negative or malformed integer is an error value (`ValueError`). Python would use
  a negative seat or tile as an index from the end. (A negative game type is
  modelled as Python reads it.)
* XML parsing (`xml.etree`) is not modelled: a document is the element tree.

| Lean module | code |
|---|---|
| `Model/Constants` | `utils/constants.py` |
| `Model/GameInfo` | `gameinfo.py` |
| `Model/Naki` | `draw.py`, class `Naki`, all methods |
| `Model/Tokens` | `process_xml.py:594-667` |
| `Model/Decision` | `decision.py`, `decision_mask` and its six helpers |
| `Model/Agari` | `utils/agari.py`, `evaluate_ron`, `evaluate_tsumo`, `hand_tensor2strs` |
| `Model/Round` | `process_xml.py:46-542`, one round, with `turn.py`, `state.py` |
| `Model/RoundFloat` | the same with `float32` rounding, and the sums and products of `decision.py`, `agari.py` |
| `Model/Xml` | `process_xml.py:31-49, 541-591`, `process`, `_get_rounds` |
| `Model/Embedding` | start of `Encoder.forward` of all four models |
| `Model/Tensors` | `TransformerTensorProcessor` of all four models |
| `Model/DataLoader` | `utils/dataloader.py` |
| `Model/SampleFloat` | storing the samples as `float32` |
| `Model/LossFloat` | `masked_fill` and `F.cross_entropy` with `float32` rounding |
| `Model/Command` | `supervised_learning.py`: arguments, choice of the network, data directories |
| `Model/Program` | `supervised_learning.py`: the program as a whole, put together from the other parts |
| `Model/Train` | `supervised_learning.py`: checkpoints, training loop, `estimate_loss` |
| `Model/Schedule` | learning-rate schedule, masked loss, encoding tables, over the reals |
| `Model/Shanten` | `utils/shanten.py` |
| `Model/Network` | the four networks: `Encoder`, `Decoder`, `StateNet`, attention, layer norm, convolutions, over the reals, evaluation mode, GELU arbitrary |
| `Model/Forward` | `forward` of the four models with sampling, shapes, mean validation loss |
| `Model/Dropout` | the same networks in training mode, dropout factors arbitrary |
| `Model/DataFiles` | `data/filter_raw.sh`, `data/scrape_data.py`; server, `gunzip` and directory listing are parameters |
| `Model/Optimizer` | `AdamW` with the schedule and restarts, for one entry of the parameters |
| `Spec/Moves` | parameters of the networks moving along a curve |
| `Spec/Coordinates` | the single numbers that make up the parameters, and how one is changed |
| `Model/Learning` | the training loop with the network in it: the generator, the optimiser's step after each loss, several calls of `train` |
| `Model/TrainLog` | `train`, `estimate_loss` and `DataLoader` with what they log |
| `Model/Printing` | `__repr__` of all classes, `result.py`, the prints of `process` under `verbose` |
| `Model/Fresh` | `_init_weights` and `_init_embeddings`: the parameters of a new model, random weights arbitrary |
| `Model/StateDict` | `state_dict` and `load_state_dict`: keys and shapes of all parameters; the printed number of parameters |
| `Model/PyInt` | `int` applied to a text |
| `Model/Examples` | the prints of `agari.py` under `verbose`; `agari.py` and `shanten.py` run as scripts |
| `Data/TestGame`, `Data/SampleGame` | the two logs in the repository, made by a script from the files |
| `Data/UnitTests` | the tests in `MahjongAI/tests` and the outputs recorded in the notebooks, as examples that the model passes |

## 4. Not modelled

Floating-point rounding in the layers of the networks (that of the loss is in C148), the distribution of dropout factors and of new weights, backpropagation (the derivative of the loss is taken to be what it computes),
gzip and file I/O, the internals of the `mahjong` package, what numpy prints for arrays, times and
numbers in the training log, failures of the network or the disk.




## 5. Axioms per theorem

* no axioms: `C143_float32_limit` `C70_fresh`
* `Quot.sound`: `C84_no_loss`
* `propext`: `C01_chi_roundtrip` `C03_ankan_roundtrip` `C04_classification_violated` `C07_constructor_canonical_violated` `C08_canonical_kakan_violated` `C08_canonical_pon_violated` `C11_post_idx_injective_violated` `C11_post_idx_type_violated` `C143_orders_covered` `C149_joined` `C152_shared` `C167_printed_violated` `C28_document_order` `C64_empty` `C66_ordered`
* `Quot.sound`, `propext`: `C03_kakan_roundtrip` `C12_discard_injective` `C143_float32_exact` `C143_sums_exact` `C149_limit` `C152_accepts` `C152_fourth` `C152_sample` `C159_skipped` `C15_type_field_violated` `C167_numbers` `C167_printed_partial` `C173_drawn_violated` `C28_rounds_partition` `C31_fields` `C32_dealerships` `C32_sum` `C39_stick` `C48_move_resolves` `C50_marks` `C54_errors` `C58_no_future` `C59_discard_allowed_violated` `C60_labels_violated` `C63_hand_channel_violated` `C69_lookups_violated` `C77_depth_14` `C80_chitoitsu` `C82_empty_batch_raises` `C83_steps` `Data.C140_kept` `Data.C140_unpacked`
* `Classical.choice`, `Quot.sound`, `propext`: `C02_pon_roundtrip` `C03_minkan_roundtrip` `C04_classification_partial` `C05_exposed_range` `C05_exposed_shape` `C06_clean_idempotent` `C06_clean_preserves` `C07_constructor_canonical_partial` `C08_canonical_partial` `C09_during_idx_injective` `C09_during_idx_range` `C100_network_accepts` `C101_builds` `C101_exact` `C101_limit_violated` `C101_pipeline` `C102_event` `C102_log` `C102_only` `C102_round` `C103_points_violated` `C103_riichi_offer_partial` `C104_closed_kans` `C105_added_kan_partial` `C105_impossible_violated` `C105_missed_violated` `C106_added_kan_never` `C106_added_kan_violated` `C106_closed_kan_partial` `C107_melds` `C108_table` `C109_chiihou_violated` `C109_double_complete` `C109_double_exact` `C109_double_sound_partial` `C109_double_violated` `C109_first_draw` `C10_post_idx_range` `C110_own_win` `C111_ron` `C112_robbing` `C113_haitei_violated` `C113_houtei_violated` `C113_last_tile_partial` `C113_renhou_missed_violated` `C113_renhou_wrong_violated` `C113_rinshan_violated` `C114_furiten_violated` `C114_passed_violated` `C114_same_kind_partial` `C115_accepted` `C115_pipeline` `C116_added_kan` `C116_discard` `C116_draw` `C117_ippatsu_input_partial` `C117_ippatsu_input_violated` `C118_offers` `C118_red` `C119_call_noticed_partial` `C119_call_noticed_violated` `C11_post_idx_injective_partial` `C120_hand_violated` `C120_shown_partial` `C121_discard_partial` `C121_draw_partial` `C121_violated` `C122_accepted` `C122_only_real_hands` `C123_batches` `C123_epoch` `C12_discard_decodable` `C131_checker` `C131_processed` `C131_sample_game` `C131_test_game` `C131_trained` `C134_against` `C134_bounded` `C134_constant` `C134_decay` `C134_first` `C134_step` `C134_untouched` `C135_normal` `C135_solve` `C136_mirror_partial` `C136_mirror_violated` `C13_dora_decodable` `C13_naki_decodable` `C13_naki_rejects` `C13_reach_decodable` `C141_calls_partial` `C141_calls_violated` `C141_decisions` `C141_own_partial` `C142_accepted` `C142_closedKan_violated` `C142_decisions_partial` `C142_renhou_violated` `C142_samples_partial` `C143_any_rounding` `C143_counts_exact` `C143_counts_small` `C144_alone` `C144_determined` `C144_games` `C144_validation` `C145_class` `C145_distinct` `C145_job` `C145_layers` `C145_names` `C145_prepared` `C146_apart` `C146_disjoint` `C146_even` `C146_files` `C146_games` `C147_assertion_blocks` `C147_blocked` `C147_is_run` `C147_outcome` `C147_runs` `C148_allowed_only` `C148_batch` `C148_bounded` `C148_forbidden_label` `C148_probabilities` `C149_prepared` `C149_stored_exactly` `C14_no_collision` `C150_dead` `C150_network` `C150_rows_partial` `C150_rows_violated` `C150_samples` `C153_accepted` `C153_actions_violated` `C153_addedKan_violated` `C153_decisions` `C153_kans_offered` `C153_samples_partial` `C154_added_kan_violated` `C154_label_violated` `C154_no_calls` `C154_one_call` `C154_round_partial` `C154_samples_partial` `C154_token_violated` `C154_told_exact` `C155_addedKan_violated` `C155_decisions` `C155_kans_offered` `C155_samples_partial` `C156_balance_partial` `C156_balance_violated` `C156_same_for_all` `C156_samples` `C157_offers` `C157_rounds` `C158_discard_violated` `C158_pon_violated` `C158_rounds_partial` `C158_rules_partial` `C158_tale_partial` `C159_eight` `C159_marks` `C159_next` `C159_numbers_partial` `C159_numbers_violated` `C159_rates` `C159_run` `C159_saved` `C15_type_field_partial` `C160_draw` `C160_exchanges` `C160_smallest` `C160_value_partial` `C160_value_violated` `C161_orphans` `C161_pairs` `C161_solve_partial` `C161_solve_violated` `C162_game` `C162_list` `C162_melds` `C162_numbers` `C162_results` `C162_round` `C162_turns` `C163_announced` `C163_header` `C163_kept` `C163_lines` `C163_same` `C163_turns_violated` `C164_alike` `C164_circles` `C164_seats` `C164_seats_partial` `C164_seats_violated` `C164_shift` `C164_speeds` `C166_function` `C166_games` `C166_parts` `C166_prepared` `C166_samples` `C166_validation` `C167_count` `C167_keys` `C167_load` `C167_names` `C167_rejected` `C168_decimals` `C168_int` `C168_tags` `C168_unique` `C16_offer_lists` `C170_batch` `C170_calls_partial` `C170_games_partial` `C170_repair` `C170_reported_violated` `C170_round` `C170_sample` `C170_steps` `C170_told` `C170_usual` `C170_validation` `C171_draws` `C171_games` `C171_padding` `C171_played` `C171_samples` `C172_positions` `C172_round` `C173_embedding` `C173_exact` `C173_padding` `C173_pons_violated` `C176_seats` `C17_source` `C18_backed` `C19_chi_takes_discard_partial` `C19_chi_takes_discard_violated` `C20_every_chi_offered_partial` `C20_every_chi_offered_violated` `C21_every_pon_offered_partial` `C21_every_pon_offered_violated` `C22_black_five_partial` `C22_black_five_violated` `C23_open_kan_never` `C23_recognised_partial` `C23_recognised_violated` `C24_ron_players` `C24_tsumo` `C25_hands_unchanged` `C26_melds` `C26_red_flag` `C27_strings` `C27_strings_injective` `C29_negative_types` `C29_rejections` `C30_only_standard_games` `C30_result_means_standard` `C33_hand_tensors` `C34_concealed` `C35_discarder` `C35_others_rejected` `C35_proviso_needed` `C36_unseen_partial` `C36_unseen_violated` `C37_unseen_by_player_partial` `C37_unseen_by_player_violated` `C38_remaining_draws_partial` `C38_remaining_draws_violated` `C39_points` `C40_permanent` `C40_riichi` `C41_menzen` `C42_discards` `C42_draws` `C43_halfturns` `C44_count` `C44_tokens` `C45_positions` `C46_sees_event_partial` `C46_sees_event_violated` `C47_snapshot_partial` `C47_snapshot_violated` `C48_resolved` `C48_unmarked` `C49_win_marked_violated` `C50_one_list` `C51_ippatsu_violated` `C52_tenhou_chiihou` `C53_seat_wind_partial` `C53_seat_wind_violated` `C54_ends_with_result` `C55_round_error` `C55_rounds_independent` `C56_accepted_iff` `C56_impossible_partial` `C56_impossible_violated` `C57_full_hands` `C58_tokens` `C59_discard_rows_partial` `C59_held_before_partial` `C60_labels_partial` `C61_own_masks` `C62_call_rows` `C63_hand_channel_partial` `C64_batches` `C65_thermometer` `C67_basic_sees_player_partial` `C67_basic_sees_player_violated` `C68_ordered_relative` `C68_ordered_shift` `C69_lookups_partial` `C69_padding_zero` `C70_epoch` `C71_full` `C71_zero` `C72_fatal` `C73_highest` `C73_ignored` `C73_number` `C73_number_only` `C73_order` `C73_unanchored_violated` `C74_partial_write_blocks` `C74_resume` `C75_after_end` `C75_bounds` `C75_decay` `C75_warmup` `C76_restores` `C76_restores_inner` `C77_terminates` `C78_decomposition` `C79_complete` `C80_kokushi_partial` `C80_kokushi_violated` `C81_ordered_distinguishes` `C82_no_empty_batch_violated` `C83_every_1000` `C84_games` `C84_validation` `C85_factors_partial` `C85_schedule_continues_violated` `C86_forbidden_label` `C86_forbidden_probability` `C86_loss_nonneg` `C87_bounded` `C87_players` `C87_positions` `C88_tenpai` `C89_fifth_tile_violated` `C90_red_never_complete` `C90_red_never_tenpai` `C90_red_violated` `C91_discard` `C91_minimal_violated` `C91_near_partial` `C91_smallest_partial` `C91_within` `C92_open_hand_violated` `C92_solve_value` `C93_covers` `C93_tiles` `C94_samples` `C95_logits_independent` `C95_loss_mean` `C96_no_samples` `C96_validation_mean_iff` `C96_validation_mean_partial` `C96_validation_mean_violated` `C97_forbidden_below` `C97_small` `C98_padding_alike_partial` `C98_padding_attention_violated` `C99_dead` `C99_influence_partial` `C99_influence_violated` `Data.C137_links` `Data.C137_none` `Data.C138_gid` `Data.C138_plain` `Data.C138_value_partial` `Data.C138_value_violated` `Data.C139_files` `Data.C139_loader` `Data.C139_once` `Data.C139_order` `Data.C140_only` `Data.C140_pages_partial` `Data.C140_pages_violated` `Net.C124_head` `Net.C124_heads` `Net.C124_range` `Net.C124_unique` `Net.C124_weights` `Net.C125_moments` `Net.C125_norm` `Net.C125_shift` `Net.C125_unique` `Net.C126_block` `Net.C126_decoder_basic` `Net.C126_decoder_ordered` `Net.C126_encoder` `Net.C126_identity` `Net.C127_blind` `Net.C127_decoder` `Net.C127_encoder` `Net.C127_events` `Net.C128_neighbours_partial` `Net.C128_neighbours_violated` `Net.C128_reads` `Net.C128_shared` `Net.C128_window` `Net.C128_window2` `Net.C129_logits` `Net.C129_run` `Net.C129_state_net` `Net.C130_exceptions` `Net.C130_forbidden_below` `Net.C130_forward` `Net.C130_independent` `Net.C130_off` `Net.C130_silenced` `Net.C130_training` `Net.C132_continuous` `Net.C132_differentiable` `Net.C132_other_heads` `Net.C132_rectifier` `Net.C133_balanced` `Net.C133_descent` `Net.C133_direction` `Net.C133_forbidden_label` `Net.C133_gradient` `Net.C134_forbidden_below` `Net.C151_dead` `Net.C151_first` `Net.C151_forbidden_below` `Net.C151_interleaved` `Net.C151_numbers` `Net.C151_trains` `Net.C151_untouched` `Net.C165_logits` `Net.C165_loss` `Net.C165_no_events` `Net.C165_padding` `Net.C165_probability` `Net.C165_sample` `Net.C167_restored` `Net.C172_new` `Net.C172_share` `Net.C172_size` `Net.C173_network` `Net.C173_separates` `Net.C174_padding` `Net.C174_separates` `Net.C175_basic` `Net.C175_order` `Net.C176_basic` `Net.C176_ordered` `Net.C177_basic` `Net.C177_ordered` `Net.C178_equation` `Net.C178_sharp` `Printing.C169_agari` `Printing.C169_lines` `Printing.C169_same` `Printing.C169_shanten` `normalValue_fuel`
