{
 "claims": [
  {
   "property": "C01",
   "status": "proved",
   "theorems": [
    "MJ.C01_chi_roundtrip"
   ],
   "note": "All constructor arguments."
  },
  {
   "property": "C02",
   "status": "proved",
   "theorems": [
    "MJ.C02_pon_roundtrip"
   ],
   "note": "All kinds, flags and source seats."
  },
  {
   "property": "C03",
   "status": "proved",
   "theorems": [
    "MJ.C03_kakan_roundtrip",
    "MJ.C03_minkan_roundtrip",
    "MJ.C03_ankan_roundtrip"
   ],
   "note": "All kinds and flags."
  },
  {
   "property": "C04",
   "status": "partial",
   "theorems": [
    "MJ.C04_classification_violated",
    "MJ.C04_classification_partial"
   ],
   "note": "The full statement is false: code 0x18 is a pon and a kakan. Proved for codes where bits 3 and 4 are not both set."
  },
  {
   "property": "C05",
   "status": "proved",
   "theorems": [
    "MJ.C05_exposed_shape",
    "MJ.C05_exposed_range"
   ],
   "note": "Shape for every code, tile range for every well-formed code."
  },
  {
   "property": "C06",
   "status": "proved",
   "theorems": [
    "MJ.C06_clean_idempotent",
    "MJ.C06_clean_preserves"
   ],
   "note": "Every code the constructor accepts."
  },
  {
   "property": "C07",
   "status": "partial",
   "theorems": [
    "MJ.C07_constructor_canonical_violated",
    "MJ.C07_constructor_canonical_partial"
   ],
   "note": "Fails for open kans of ordinary kinds with which = 0; proved for everything else."
  },
  {
   "property": "C08",
   "status": "partial",
   "theorems": [
    "MJ.C08_canonical_pon_violated",
    "MJ.C08_canonical_kakan_violated",
    "MJ.C08_canonical_partial"
   ],
   "note": "Fails in both directions (plain pons, added kans of fives); exact characterisation proved for the rest."
  },
  {
   "property": "C09",
   "status": "proved",
   "theorems": [
    "MJ.C09_during_idx_range",
    "MJ.C09_during_idx_injective"
   ],
   "note": ""
  },
  {
   "property": "C10",
   "status": "proved",
   "theorems": [
    "MJ.C10_post_idx_range"
   ],
   "note": ""
  },
  {
   "property": "C100",
   "status": "proved",
   "theorems": [
    "MJ.C100_network_accepts"
   ],
   "note": ""
  },
  {
   "property": "C101",
   "status": "proved",
   "theorems": [
    "MJ.C101_builds",
    "MJ.C101_exact",
    "MJ.C101_pipeline",
    "MJ.C101_limit_violated"
   ],
   "note": ""
  },
  {
   "property": "C102",
   "status": "proved",
   "theorems": [
    "MJ.C102_log",
    "MJ.C102_round",
    "MJ.C102_event",
    "MJ.C102_only"
   ],
   "note": ""
  },
  {
   "property": "C103",
   "status": "partial",
   "theorems": [
    "MJ.C103_riichi_offer_partial",
    "MJ.C103_points_violated"
   ],
   "note": "False as to points: riichi is also offered to a player with less than 1000 points. The other three conditions are exact."
  },
  {
   "property": "C104",
   "status": "proved",
   "theorems": [
    "MJ.C104_closed_kans"
   ],
   "note": ""
  },
  {
   "property": "C105",
   "status": "partial",
   "theorems": [
    "MJ.C105_missed_violated",
    "MJ.C105_impossible_violated",
    "MJ.C105_added_kan_partial"
   ],
   "note": "False in both directions: the code looks up the number of the kind in a table indexed by tile, so a possible added kan is missed and an impossible one is offered. The third theorem says exactly what is offered."
  },
  {
   "property": "C106",
   "status": "partial",
   "theorems": [
    "MJ.C106_closed_kan_partial",
    "MJ.C106_added_kan_never",
    "MJ.C106_added_kan_violated"
   ],
   "note": "Holds for closed kans. False for added kans: one whose code names the seat of the pon is never recognised, because offered codes name none."
  },
  {
   "property": "C107",
   "status": "proved",
   "theorems": [
    "MJ.C107_melds"
   ],
   "note": ""
  },
  {
   "property": "C108",
   "status": "proved",
   "theorems": [
    "MJ.C108_table"
   ],
   "note": ""
  },
  {
   "property": "C109",
   "status": "partial",
   "theorems": [
    "MJ.C109_double_complete",
    "MJ.C109_double_sound_partial",
    "MJ.C109_double_exact",
    "MJ.C109_double_violated",
    "MJ.C109_first_draw",
    "MJ.C109_chiihou_violated"
   ],
   "note": "Real double riichi is always recognised, tenhou is exact, and all is exact as long as nobody calls. C109_double_exact says exactly when double riichi is recorded. False after a closed kan: a later riichi counts as double, and a later draw as chiihou."
  },
  {
   "property": "C11",
   "status": "partial",
   "theorems": [
    "MJ.C11_post_idx_injective_violated",
    "MJ.C11_post_idx_type_violated",
    "MJ.C11_post_idx_injective_partial"
   ],
   "note": "Action numbers collide for chis with the red five from the hand; injective otherwise, up to the red flag of pons."
  },
  {
   "property": "C110",
   "status": "proved",
   "theorems": [
    "MJ.C110_own_win"
   ],
   "note": ""
  },
  {
   "property": "C111",
   "status": "proved",
   "theorems": [
    "MJ.C111_ron"
   ],
   "note": "The hand evaluator itself is a parameter."
  },
  {
   "property": "C112",
   "status": "proved",
   "theorems": [
    "MJ.C112_robbing"
   ],
   "note": ""
  },
  {
   "property": "C113",
   "status": "partial",
   "theorems": [
    "MJ.C113_last_tile_partial",
    "MJ.C110_own_win",
    "MJ.C111_ron",
    "MJ.C112_robbing",
    "MJ.C113_rinshan_violated",
    "MJ.C113_haitei_violated",
    "MJ.C113_houtei_violated",
    "MJ.C113_renhou_missed_violated",
    "MJ.C113_renhou_wrong_violated"
   ],
   "note": "False for all four flags; C110 to C112 say exactly when they are set. is_rinshan and is_houtei never are. is_haitei is right for draws as long as there is no kan and no new indicator, else early. is_renhou compares the number of draws with the seat number."
  },
  {
   "property": "C114",
   "status": "partial",
   "theorems": [
    "MJ.C114_same_kind_partial",
    "MJ.C111_ron",
    "MJ.C114_furiten_violated",
    "MJ.C114_passed_violated"
   ],
   "note": "Only the kind of the discard itself is checked. False otherwise: the win is offered though another winning tile was discarded, or a winning discard was let pass."
  },
  {
   "property": "C115",
   "status": "proved",
   "theorems": [
    "MJ.C115_accepted",
    "MJ.C115_pipeline",
    "MJ.C56_accepted_iff"
   ],
   "note": "For evaluators and shanten calculators that answer every question."
  },
  {
   "property": "C116",
   "status": "proved",
   "theorems": [
    "MJ.C116_draw",
    "MJ.C116_discard",
    "MJ.C116_added_kan"
   ],
   "note": "The ippatsu flags are the subject of C117."
  },
  {
   "property": "C117",
   "status": "partial",
   "theorems": [
    "MJ.C117_ippatsu_input_violated",
    "MJ.C117_ippatsu_input_partial"
   ],
   "note": "False: the flag goes off with the next player's draw. When it is set is proved."
  },
  {
   "property": "C118",
   "status": "proved",
   "theorems": [
    "MJ.C118_offers",
    "MJ.C118_red"
   ],
   "note": ""
  },
  {
   "property": "C119",
   "status": "partial",
   "theorems": [
    "MJ.C119_call_noticed_violated",
    "MJ.C119_call_noticed_partial"
   ],
   "note": "False for many calls. C119_call_noticed_partial says exactly which calls are marked."
  },
  {
   "property": "C12",
   "status": "proved",
   "theorems": [
    "MJ.C12_discard_decodable",
    "MJ.C12_discard_injective"
   ],
   "note": ""
  },
  {
   "property": "C120",
   "status": "partial",
   "theorems": [
    "MJ.C120_shown_partial",
    "MJ.C120_hand_violated"
   ],
   "note": "False for the hand, the unseen tiles and the closed hands, which are those at the end of the round. C120_shown_partial says for every entry of tokens and state what it shows."
  },
  {
   "property": "C121",
   "status": "partial",
   "theorems": [
    "MJ.C121_violated",
    "MJ.C121_draw_partial",
    "MJ.C121_discard_partial"
   ],
   "note": "False for every converter and every evaluator that wants the winning tile among its tiles: a legally drawn tile that completes a triplet, three sequences and a pair is not offered as a win. The partial theorems say that the kind of the winning tile is always there and, for a converter that takes first copies, exactly when the tile itself is."
  },
  {
   "property": "C122",
   "status": "proved",
   "theorems": [
    "MJ.C122_only_real_hands",
    "MJ.C122_accepted"
   ],
   "note": "The conditions on the log: own-turn kans follow the own draw, codes are those of melds, calls take the tile just discarded, added kans extend an own pon."
  },
  {
   "property": "C123",
   "status": "proved",
   "theorems": [
    "MJ.C123_batches",
    "MJ.C123_epoch"
   ],
   "note": "Over the reals, evaluation mode; for training mode see C130. That the last log must be of a usable game is necessary for the basic and the convolutional models (C82)."
  },
  {
   "property": "C124",
   "status": "proved",
   "theorems": [
    "MJ.Net.C124_weights",
    "MJ.Net.C124_unique",
    "MJ.Net.C124_head",
    "MJ.Net.C124_range",
    "MJ.Net.C124_heads"
   ],
   "note": "Over the reals."
  },
  {
   "property": "C125",
   "status": "proved",
   "theorems": [
    "MJ.Net.C125_norm",
    "MJ.Net.C125_unique",
    "MJ.Net.C125_moments",
    "MJ.Net.C125_shift"
   ],
   "note": "Over the reals."
  },
  {
   "property": "C126",
   "status": "proved",
   "theorems": [
    "MJ.Net.C126_block",
    "MJ.Net.C126_encoder",
    "MJ.Net.C126_decoder_ordered",
    "MJ.Net.C126_decoder_basic",
    "MJ.Net.C126_identity"
   ],
   "note": "Over the reals, evaluation mode."
  },
  {
   "property": "C127",
   "status": "proved",
   "theorems": [
    "MJ.Net.C127_encoder",
    "MJ.Net.C127_decoder",
    "MJ.Net.C127_events",
    "MJ.Net.C127_blind"
   ],
   "note": "Over the reals, evaluation mode. The sums of floating-point numbers depend on the order by rounding."
  },
  {
   "property": "C128",
   "status": "partial",
   "theorems": [
    "MJ.Net.C128_window",
    "MJ.Net.C128_window2",
    "MJ.Net.C128_shared",
    "MJ.Net.C128_reads",
    "MJ.Net.C128_neighbours_violated",
    "MJ.Net.C128_neighbours_partial"
   ],
   "note": "False: nine of a suit and one of the next, the honours and the red fives are neighbours for the convolution, and a red five is not next to the four and six of its suit. C128_neighbours_partial lists all wrong and missing pairs."
  },
  {
   "property": "C129",
   "status": "proved",
   "theorems": [
    "MJ.Net.C129_state_net",
    "MJ.Net.C129_logits",
    "MJ.Net.C129_run"
   ],
   "note": "The parameters may depend on the two samples. C129_run is about whole runs of the networks, with the mask and in batches of any size. Which states the processor gives is another matter (C47, C120)."
  },
  {
   "property": "C13",
   "status": "proved",
   "theorems": [
    "MJ.C13_naki_decodable",
    "MJ.C13_naki_rejects",
    "MJ.C13_reach_decodable",
    "MJ.C13_dora_decodable"
   ],
   "note": ""
  },
  {
   "property": "C130",
   "status": "proved",
   "theorems": [
    "MJ.Net.C130_off",
    "MJ.Net.C130_silenced",
    "MJ.Net.C130_exceptions",
    "MJ.Net.C130_forward",
    "MJ.Net.C130_training",
    "MJ.Net.C130_forbidden_below",
    "MJ.Net.C130_independent"
   ],
   "note": "The factors are arbitrary numbers; their distribution is not modelled."
  },
  {
   "property": "C131",
   "status": "proved",
   "theorems": [
    "MJ.C131_checker",
    "MJ.C131_test_game",
    "MJ.C131_sample_game",
    "MJ.C131_processed",
    "MJ.C131_trained"
   ],
   "note": "The logs are written into Data/ by a script from the files in the repository. Data/UnitTests has the tests of the repository and the outputs recorded in its notebooks as examples."
  },
  {
   "property": "C132",
   "status": "proved",
   "theorems": [
    "MJ.Net.C132_continuous",
    "MJ.Net.C132_differentiable",
    "MJ.Net.C132_rectifier",
    "MJ.Net.C132_other_heads"
   ],
   "note": "Over the reals. The activation gelu is any continuous (differentiable) function."
  },
  {
   "property": "C133",
   "status": "proved",
   "theorems": [
    "MJ.Net.C133_gradient",
    "MJ.Net.C133_direction",
    "MJ.Net.C133_balanced",
    "MJ.Net.C133_forbidden_label",
    "MJ.Net.C133_descent"
   ],
   "note": "Labels that are not allowed do occur (C59, C60); C133_forbidden_label says what they do."
  },
  {
   "property": "C134",
   "status": "proved",
   "theorems": [
    "MJ.C134_step",
    "MJ.C134_bounded",
    "MJ.C134_untouched",
    "MJ.C134_first",
    "MJ.C134_against",
    "MJ.C134_decay",
    "MJ.C134_constant",
    "MJ.Net.C134_forbidden_below",
    "MJ.C97_small"
   ],
   "note": "torch.optim.AdamW is modelled by its documented formulas with the default settings. The parameters are assumed to be at most 730 at the beginning (the initialisations of PyTorch are far below)."
  },
  {
   "property": "C135",
   "status": "proved",
   "theorems": [
    "MJ.C135_normal",
    "MJ.C135_solve"
   ],
   "note": "The slots of the red fives are left as they are."
  },
  {
   "property": "C136",
   "status": "partial",
   "theorems": [
    "MJ.C136_mirror_violated",
    "MJ.C136_mirror_partial"
   ],
   "note": "False: three ones beside two twos and two threes are judged worse than three nines beside two eights and two sevens. The values differ by at most one, and only if the hand or its mirror image has this pattern."
  },
  {
   "property": "C137",
   "status": "proved",
   "theorems": [
    "MJ.Data.C137_links",
    "MJ.Data.C137_none"
   ],
   "note": "The regular expression is modelled by the list of its matches in the order in which re tries them."
  },
  {
   "property": "C138",
   "status": "partial",
   "theorems": [
    "MJ.Data.C138_gid",
    "MJ.Data.C138_value_violated",
    "MJ.Data.C138_value_partial",
    "MJ.Data.C138_plain"
   ],
   "note": "False: for an address with a further parameter, such as ...&tw=0, the id is the text up to the next equals sign. It is right exactly if the rest of the address has no = and no &."
  },
  {
   "property": "C139",
   "status": "proved",
   "theorems": [
    "MJ.Data.C139_files",
    "MJ.Data.C139_order",
    "MJ.Data.C139_once",
    "MJ.Data.C139_loader"
   ],
   "note": "Network and file system are modelled as functions; a name with a slash makes open raise."
  },
  {
   "property": "C14",
   "status": "proved",
   "theorems": [
    "MJ.C14_no_collision"
   ],
   "note": ""
  },
  {
   "property": "C140",
   "status": "partial",
   "theorems": [
    "MJ.Data.C140_kept",
    "MJ.Data.C140_unpacked",
    "MJ.Data.C140_only",
    "MJ.Data.C140_pages_violated",
    "MJ.Data.C140_pages_partial"
   ],
   "note": "False for hidden pages: the pattern of the script does not match them and os.listdir lists them. Right exactly if there are none. gunzip is a function of the content and does not overwrite."
  },
  {
   "property": "C141",
   "status": "partial",
   "theorems": [
    "MJ.C141_decisions",
    "MJ.C141_own_partial",
    "MJ.C141_calls_violated",
    "MJ.C141_calls_partial"
   ],
   "note": "False for the call head: its samples show the hand and the unseen tiles of the player who discarded. Tokens, decisions, and the samples of the own-turn and discard heads are independent of hidden tiles (if kans in one's own turn are declared by the player who drew); two call samples at the same point differ in the first two planes only."
  },
  {
   "property": "C142",
   "status": "partial",
   "theorems": [
    "MJ.C142_accepted",
    "MJ.C142_decisions_partial",
    "MJ.C142_samples_partial",
    "MJ.C142_renhou_violated",
    "MJ.C142_closedKan_violated"
   ],
   "note": "False in two places: is_renhou compares the count of turns with the seat number of the player who discards (process_xml.py:471), and a closed kan adds the seat number of its maker to the count of turns (process_xml.py:170), which the next is_chiihou depends on. True otherwise: for evaluators that ignore is_renhou, in rounds without closed kans."
  },
  {
   "property": "C143",
   "status": "proved",
   "theorems": [
    "MJ.C143_counts_exact",
    "MJ.C143_any_rounding",
    "MJ.C143_float32_exact",
    "MJ.C143_float32_limit",
    "MJ.C143_sums_exact",
    "MJ.C143_counts_small",
    "MJ.C143_orders_covered"
   ],
   "note": "For rounds with hand lists and event lists of up to 100000 entries each. Overflow of float32 (from 2^128 on) is not modelled; it is out of reach."
  },
  {
   "property": "C144",
   "status": "proved",
   "theorems": [
    "MJ.C144_determined",
    "MJ.C144_alone",
    "MJ.C144_games",
    "MJ.C144_validation"
   ],
   "note": "Every number that enters the network is an entry of the sample; over the reals, evaluation mode."
  },
  {
   "property": "C145",
   "status": "proved",
   "theorems": [
    "MJ.C145_names",
    "MJ.C145_distinct",
    "MJ.C145_layers",
    "MJ.C145_class",
    "MJ.C145_prepared",
    "MJ.C145_job"
   ],
   "note": "Python's int on a text and the listing of directories are parameters; loading the checkpoint is in C73 and C74."
  },
  {
   "property": "C146",
   "status": "proved",
   "theorems": [
    "MJ.C146_files",
    "MJ.C146_disjoint",
    "MJ.C146_apart",
    "MJ.C146_games",
    "MJ.C146_even"
   ],
   "note": "That the files of a year begin with the year, as the ids of the games do, is an assumption of C146_games only."
  },
  {
   "property": "C147",
   "status": "proved",
   "theorems": [
    "MJ.C147_runs",
    "MJ.C147_outcome",
    "MJ.C147_blocked",
    "MJ.C147_assertion_blocks",
    "MJ.C147_is_run"
   ],
   "note": "Joins C145, C146, C123, C83, C72, C74. For C147_runs the last file of each directory must be a game that is used (see C82), and the helpers must answer for hands that exist."
  },
  {
   "property": "C148",
   "status": "proved",
   "theorems": [
    "MJ.C148_allowed_only",
    "MJ.C148_probabilities",
    "MJ.C148_bounded",
    "MJ.C148_forbidden_label",
    "MJ.C148_batch"
   ],
   "note": "Masking and loss only; the layers before are not modelled with rounding. That such an arithmetic exists is proved (ideal_float32). Overflow is out of reach by C148_bounded."
  },
  {
   "property": "C149",
   "status": "proved",
   "theorems": [
    "MJ.C149_stored_exactly",
    "MJ.C149_joined",
    "MJ.C149_prepared",
    "MJ.C149_limit"
   ],
   "note": "The bound on the log numbers is needed (C149_limit); real scores are a few thousand at most."
  },
  {
   "property": "C15",
   "status": "partial",
   "theorems": [
    "MJ.C15_type_field_violated",
    "MJ.C15_type_field_partial"
   ],
   "note": "Every discard token carries the NAKI constant; all other events are right."
  },
  {
   "property": "C150",
   "status": "partial",
   "theorems": [
    "MJ.C150_rows_violated",
    "MJ.C150_rows_partial",
    "MJ.C150_dead",
    "MJ.C150_samples",
    "MJ.C150_network"
   ],
   "note": "False; the dead rows are listed exactly for each variant: in the basic and convolutional models the types but one, the players but one, 3 rows of own-turn actions and 57 of calls; in the ordered model one type, the three red fives, tsumogiri 0, 3 own-turn and 10 call rows."
  },
  {
   "property": "C151",
   "status": "proved",
   "theorems": [
    "MJ.Net.C151_interleaved",
    "MJ.Net.C151_trains",
    "MJ.Net.C151_numbers",
    "MJ.Net.C151_forbidden_below",
    "MJ.Net.C151_first",
    "MJ.Net.C151_untouched",
    "MJ.Net.C151_dead"
   ],
   "note": "Over the reals. loss.backward() is a parameter; that the partial derivatives satisfy what C151_dead and C151_untouched suppose about it is proved (example after slopes)."
  },
  {
   "property": "C152",
   "status": "proved",
   "theorems": [
    "MJ.C152_sample",
    "MJ.C152_accepts",
    "MJ.C152_fourth",
    "MJ.C152_shared"
   ],
   "note": "The parser never offers riichi after a discard, so the shared number does no harm at present."
  },
  {
   "property": "C153",
   "status": "partial",
   "theorems": [
    "MJ.C153_accepted",
    "MJ.C153_decisions",
    "MJ.C153_samples_partial",
    "MJ.C153_kans_offered",
    "MJ.C153_addedKan_violated",
    "MJ.C153_actions_violated"
   ],
   "note": "False in one place: an added kan is offered iff the player holds the tile whose number is that of the kind, always a tile of the characters (process_xml.py:367-379), so the offered kans, and with them the own-turn samples, are not exchanged in rounds with a pon of a kind k unless tile k becomes the tile with the number of what kind k becomes (PonsKept). Everything else is: tokens, wins, riichi, calls, the samples of the discard and the call head in all rounds, of the own-turn head in rounds where pons are only of such kinds. The samples of the call head are described by the calls they allow, as no renumbering of the actions can do it (C153_actions_violated): the numbers of two calls with a red five in different suits can be the same (C11)."
  },
  {
   "property": "C154",
   "status": "partial",
   "theorems": [
    "MJ.C154_round_partial",
    "MJ.C154_samples_partial",
    "MJ.C154_no_calls",
    "MJ.C154_one_call",
    "MJ.C154_told_exact",
    "MJ.C154_label_violated",
    "MJ.C154_token_violated",
    "MJ.C154_added_kan_violated"
   ],
   "note": "False in three places. (1) A pon without a red five is recognised as the offered one only if the called tile is the first of the three copies, so the label depends on the copy (draw.py: clean_pon keeps the position of the called tile). (2) The token of a pon with a red five depends on whether the called tile is copy 3. (3) An added kan is offered iff the player holds the tile whose number is that of the kind, so which copies of the first nine kinds are held matters. Elsewhere it holds: C154_samples_partial supposes exactly that these readings agree (Told, exact by C154_told_exact), and that tiles 0 to 33 keep their names if there is a pon. The evaluator is supposed not to look at the copies."
  },
  {
   "property": "C155",
   "status": "partial",
   "theorems": [
    "MJ.C155_decisions",
    "MJ.C155_samples_partial",
    "MJ.C155_kans_offered",
    "MJ.C155_addedKan_violated",
    "MJ.C153_accepted"
   ],
   "note": "False in one place: whether an added kan of an honour is offered depends on a tile of the characters (27 for East, 28 for South, ...), so in rounds with a pon of an honour that becomes another one the own-turn samples differ. Everything else holds without exception, and here, unlike for the suits, masks and labels of the call head are exchanged number by number. The prevailing and own wind are no input of the model, only of the evaluator, whose answers are supposed to be exchanged along. Acceptance is C153_accepted, which includes the honours."
  },
  {
   "property": "C156",
   "status": "partial",
   "theorems": [
    "MJ.C156_balance_partial",
    "MJ.C156_balance_violated",
    "MJ.C156_same_for_all",
    "MJ.C156_samples"
   ],
   "note": "False in one place: a red five turned over as a later indicator is still counted as unseen in its red slot (as in C37), so there the indicators after the first have to be left out of the sum. The rest holds without exception: four of each kind at every moment, the same sum for all players, and the planes of every sample."
  },
  {
   "property": "C157",
   "status": "proved",
   "theorems": [
    "MJ.C157_offers",
    "MJ.C157_rounds"
   ],
   "note": "The offers are compared as sets of melds (type, source, kinds from the hand, kind called, red five). The mistakes of the offers (C19, C20, C22) are symmetric as well: the wrongly named tile of a middle wait exists at both ends."
  },
  {
   "property": "C158",
   "status": "partial",
   "theorems": [
    "MJ.C158_tale_partial",
    "MJ.C158_rounds_partial",
    "MJ.C158_rules_partial",
    "MJ.C158_discard_violated",
    "MJ.C158_pon_violated"
   ],
   "note": "Exact: two rounds have the same tokens iff they agree in everything but red fives, where for a chi the red five from the hand is told, and for a pon only if the called tile is the fourth copy. C158_discard_violated and C158_pon_violated: red and black fives are not told apart for discards and other pons. The ambiguous numbers of C11 are resolved by the kind of the discard before the call."
  },
  {
   "property": "C159",
   "status": "partial",
   "theorems": [
    "MJ.C159_run",
    "MJ.C159_marks",
    "MJ.C159_saved",
    "MJ.C159_next",
    "MJ.C159_rates",
    "MJ.C159_numbers_partial",
    "MJ.C159_eight",
    "MJ.C159_skipped",
    "MJ.C159_numbers_violated"
   ],
   "note": "C159_numbers_violated: a loader counts its calls over all iterations of a run, including the call that ends a loop, and reset does not set the count back; so the second pass over a part of n batches is numbered from n+2. C159_numbers_partial: exact numbers, (m/8)(n+1)+1 and following in the m-th iteration of a run; C159_eight: right in runs of at most eight iterations. Times and logged values are left out."
  },
  {
   "property": "C16",
   "status": "proved",
   "theorems": [
    "MJ.C16_offer_lists"
   ],
   "note": "Also shows decision_mask never raises on a real kind."
  },
  {
   "property": "C160",
   "status": "partial",
   "theorems": [
    "MJ.C160_smallest",
    "MJ.C160_value_partial",
    "MJ.C160_exchanges",
    "MJ.C160_draw",
    "MJ.C160_value_violated"
   ],
   "note": "C160_smallest, C160_exchanges and C160_draw hold without exception. C160_value_partial: the value of the search is one less than the number of missing tiles, or equal to it; it is one less unless a kind is held three times beside two of each of the next two. C160_value_violated: a hand with this pattern that lacks one tile and has value 1. A fifth tile of a kind counts as possible (see C89)."
  },
  {
   "property": "C161",
   "status": "partial",
   "theorems": [
    "MJ.C161_pairs",
    "MJ.C161_orphans",
    "MJ.C161_solve_partial",
    "MJ.C161_solve_violated"
   ],
   "note": "C161_pairs and C161_orphans: exact numbers of missing tiles for the two special forms. C161_solve_partial: for hands with tiles of at least seven kinds, some terminal or honour and none of them three times, and without the pattern of C160. C161_solve_violated: five pairs and three of a kind get the value 0, but two tiles are missing, since the code does not ask for seven different kinds."
  },
  {
   "property": "C162",
   "status": "proved",
   "theorems": [
    "MJ.C162_melds",
    "MJ.C162_turns",
    "MJ.C162_game",
    "MJ.C162_round",
    "MJ.C162_results",
    "MJ.C162_numbers",
    "MJ.C162_list"
   ],
   "note": "Texts are lists of characters. For a meld of no known type the text is the same for all; C09 and C11 say which melds have the same number."
  },
  {
   "property": "C163",
   "status": "partial",
   "theorems": [
    "MJ.C163_same",
    "MJ.C163_lines",
    "MJ.C163_announced",
    "MJ.C163_header",
    "MJ.C163_kept",
    "MJ.C163_turns_violated"
   ],
   "note": "C163_turns_violated: the number of half-turns is always given as 0, since the list that is counted is never filled. What numpy prints for arrays is a parameter. The rest is C163_same, C163_lines, C163_announced, C163_header and C163_kept."
  },
  {
   "property": "C164",
   "status": "partial",
   "theorems": [
    "MJ.C164_speeds",
    "MJ.C164_circles",
    "MJ.C164_alike",
    "MJ.C164_shift",
    "MJ.C164_seats",
    "MJ.C164_seats_partial",
    "MJ.C164_seats_violated"
   ],
   "note": "C164_seats_violated: seats are arranged in a circle, but in the table of seat codes 3 and 0 are less alike than 0 and 1, since only the first circle closes after four seats (C164_seats_partial). C164_seats gives the exact number. For positions everything holds. Over the reals."
  },
  {
   "property": "C165",
   "status": "proved",
   "theorems": [
    "MJ.Net.C165_logits",
    "MJ.Net.C165_sample",
    "MJ.Net.C165_probability",
    "MJ.Net.C165_loss",
    "MJ.Net.C165_padding",
    "MJ.Net.C165_no_events"
   ],
   "note": "Over the reals. The weights are arbitrary; that r is about 0.16 for the distribution that is drawn from is not part of the claim."
  },
  {
   "property": "C166",
   "status": "proved",
   "theorems": [
    "MJ.C166_function",
    "MJ.C166_samples",
    "MJ.C166_parts",
    "MJ.C166_prepared",
    "MJ.C166_games",
    "MJ.C166_validation"
   ],
   "note": "Over the reals: the sum of a mean does not depend on the order there. In which batch a game is does matter for the validation loss (C96)."
  },
  {
   "property": "C167",
   "status": "partial",
   "theorems": [
    "MJ.C167_keys",
    "MJ.C167_load",
    "MJ.C167_rejected",
    "MJ.C167_names",
    "MJ.Net.C167_restored",
    "MJ.C167_numbers",
    "MJ.C167_count",
    "MJ.C167_printed_partial",
    "MJ.C167_printed_violated"
   ],
   "note": "C167_printed_violated: two of the four files end in an exception when run: transformer_conv_large.py calls a class that is not defined there, transformer_conv_ordered.py leaves out the number of layers. The other two print the number (C167_printed_partial). The rest holds without restriction, over the reals."
  },
  {
   "property": "C168",
   "status": "proved",
   "theorems": [
    "MJ.C168_int",
    "MJ.C168_decimals",
    "MJ.C168_unique",
    "MJ.C168_tags"
   ],
   "note": "Which characters outside ASCII are digits or white space is arbitrary. The limit of 4300 digits in new versions of Python is left out. Negative numbers are read here; in the model of the rounds they count as unreadable where a seat, tile or code is expected."
  },
  {
   "property": "C169",
   "status": "proved",
   "theorems": [
    "MJ.Printing.C169_same",
    "MJ.Printing.C169_lines",
    "MJ.Printing.C169_agari",
    "MJ.Printing.C169_shanten"
   ],
   "note": "The library and what it and numpy print are parameters."
  },
  {
   "property": "C17",
   "status": "proved",
   "theorems": [
    "MJ.C17_source"
   ],
   "note": ""
  },
  {
   "property": "C170",
   "status": "partial",
   "theorems": [
    "MJ.C170_sample",
    "MJ.C170_batch",
    "MJ.C170_round",
    "MJ.C170_games_partial",
    "MJ.C170_calls_partial",
    "MJ.C170_reported_violated",
    "MJ.C170_repair",
    "MJ.C170_usual",
    "MJ.C170_steps",
    "MJ.C170_validation",
    "MJ.C170_told"
   ],
   "note": "False for draws and discards, because of C59 and C60; the loss is characterised up to a bound, from the log and the last two layers. It holds for calls. C170_told: in any training the loss of a single sample is above 6.5e8 iff its label is forbidden."
  },
  {
   "property": "C171",
   "status": "proved",
   "theorems": [
    "MJ.C171_draws",
    "MJ.C171_played",
    "MJ.C171_samples",
    "MJ.C171_padding",
    "MJ.C171_games"
   ],
   "note": "Really played: kans by the player who has drawn, well-formed meld codes, four scores, at most four riichi (as in C101)."
  },
  {
   "property": "C172",
   "status": "proved",
   "theorems": [
    "MJ.Net.C172_share",
    "MJ.Net.C172_new",
    "MJ.Net.C172_size",
    "MJ.C172_positions",
    "MJ.C172_round"
   ],
   "note": "Over the reals, evaluation mode. C172_size gives bounds in both directions for any weights. That the weights that are drawn stretch no vector by more than a fifth is likely but not certain; it is a hypothesis."
  },
  {
   "property": "C173",
   "status": "partial",
   "theorems": [
    "MJ.C173_embedding",
    "MJ.C173_exact",
    "MJ.C173_pons_violated",
    "MJ.C173_drawn_violated",
    "MJ.C173_padding",
    "MJ.Net.C173_network",
    "MJ.Net.C173_separates"
   ],
   "note": "False. C173_exact: two events have the same embedding for all tables iff they look the same: players are never seen; all pons look the same, and with them the open kans of the first eight kinds and the chis with numbers from 70 on; tiles 25 to 36 (honours, red fives, 8 and 9 of bamboos) look the same when discarded after being drawn. All other events are told apart. C173_padding: padding has a nonzero embedding, the same at all positions. C173_network: logits and loss stay the same for all parameters when events are replaced by others that look the same; C173_separates: replacing one event by one that looks different changes the logit of any given allowed action for some parameters, in all batches."
  },
  {
   "property": "C174",
   "status": "proved",
   "theorems": [
    "MJ.Net.C174_separates",
    "MJ.Net.C174_padding"
   ],
   "note": "The parameters may depend on the two events. The basic and convolutional networks do not have this (C173)."
  },
  {
   "property": "C175",
   "status": "proved",
   "theorems": [
    "MJ.Net.C175_order",
    "MJ.Net.C175_basic"
   ],
   "note": "The parameters may depend on the two events and their positions. In the ordered network all events with different tokens, in the others all that look different; exchanging events that look the same never changes anything (C173_network)."
  },
  {
   "property": "C176",
   "status": "proved",
   "theorems": [
    "MJ.Net.C176_ordered",
    "MJ.C176_seats",
    "MJ.Net.C176_basic"
   ],
   "note": "The parameters may depend on the two samples. What the events of the basic and convolutional networks look like is Look (C173)."
  },
  {
   "property": "C177",
   "status": "proved",
   "theorems": [
    "MJ.Net.C177_ordered",
    "MJ.Net.C177_basic"
   ],
   "note": "The parameters depend on the batch. Numbers are real: nothing is said about how far apart the logits are."
  },
  {
   "property": "C178",
   "status": "proved",
   "theorems": [
    "MJ.Net.C178_equation",
    "MJ.Net.C178_sharp"
   ],
   "note": "C178_equation says something for the own-turn head (71 actions) and the call head (154 actions); the discard head has only 37 actions. The samples of C178_sharp have arbitrary numbers as state. Over the reals."
  },
  {
   "property": "C18",
   "status": "proved",
   "theorems": [
    "MJ.C18_backed"
   ],
   "note": ""
  },
  {
   "property": "C19",
   "status": "partial",
   "theorems": [
    "MJ.C19_chi_takes_discard_violated",
    "MJ.C19_chi_takes_discard_partial"
   ],
   "note": "False for the middle wait 3_5/5_7 with the red five held (the code names the wrong called tile); proved in all other cases."
  },
  {
   "property": "C20",
   "status": "partial",
   "theorems": [
    "MJ.C20_every_chi_offered_violated",
    "MJ.C20_every_chi_offered_partial"
   ],
   "note": "Every run is offered; the called tile is wrong in the same middle-wait case."
  },
  {
   "property": "C21",
   "status": "partial",
   "theorems": [
    "MJ.C21_every_pon_offered_violated",
    "MJ.C21_every_pon_offered_partial"
   ],
   "note": "False with three copies (no pon offered); exact condition proved."
  },
  {
   "property": "C22",
   "status": "partial",
   "theorems": [
    "MJ.C22_black_five_violated",
    "MJ.C22_black_five_partial"
   ],
   "note": "The red version is exact; the black version looks at the count of the discarded kind. Exact condition proved."
  },
  {
   "property": "C23",
   "status": "partial",
   "theorems": [
    "MJ.C23_recognised_violated",
    "MJ.C23_recognised_partial",
    "MJ.C23_open_kan_never"
   ],
   "note": "False; exact condition under which a legal logged call is recognised."
  },
  {
   "property": "C24",
   "status": "proved",
   "theorems": [
    "MJ.C24_ron_players",
    "MJ.C24_tsumo"
   ],
   "note": "Also pins down the question put to the evaluator (hand plus winning tile, melds, dora, flags); the evaluator is a parameter."
  },
  {
   "property": "C25",
   "status": "proved",
   "theorems": [
    "MJ.C25_hands_unchanged"
   ],
   "note": "evaluate_tsumo has no write to the tensors; in the model it returns no tensors."
  },
  {
   "property": "C26",
   "status": "proved",
   "theorems": [
    "MJ.C26_melds",
    "MJ.C26_red_flag"
   ],
   "note": ""
  },
  {
   "property": "C27",
   "status": "proved",
   "theorems": [
    "MJ.C27_strings",
    "MJ.C27_strings_injective"
   ],
   "note": ""
  },
  {
   "property": "C28",
   "status": "proved",
   "theorems": [
    "MJ.C28_rounds_partition",
    "MJ.C28_document_order"
   ],
   "note": ""
  },
  {
   "property": "C29",
   "status": "proved",
   "theorems": [
    "MJ.C29_rejections",
    "MJ.C29_negative_types"
   ],
   "note": "A negative game type is read like Python's & reads it, in two's complement."
  },
  {
   "property": "C30",
   "status": "proved",
   "theorems": [
    "MJ.C30_only_standard_games",
    "MJ.C30_result_means_standard"
   ],
   "note": ""
  },
  {
   "property": "C31",
   "status": "proved",
   "theorems": [
    "MJ.C31_fields"
   ],
   "note": ""
  },
  {
   "property": "C32",
   "status": "proved",
   "theorems": [
    "MJ.C32_dealerships",
    "MJ.C32_sum"
   ],
   "note": ""
  },
  {
   "property": "C33",
   "status": "proved",
   "theorems": [
    "MJ.C33_hand_tensors"
   ],
   "note": ""
  },
  {
   "property": "C34",
   "status": "proved",
   "theorems": [
    "MJ.C34_concealed"
   ],
   "note": ""
  },
  {
   "property": "C35",
   "status": "proved",
   "theorems": [
    "MJ.C35_discarder",
    "MJ.C35_others_rejected",
    "MJ.C35_proviso_needed"
   ],
   "note": "With the proviso that closed and added kans are made by the player who has just drawn (the code does not check `who` there)."
  },
  {
   "property": "C36",
   "status": "partial",
   "theorems": [
    "MJ.C36_unseen_partial",
    "MJ.C36_unseen_violated"
   ],
   "note": "False for red-five indicators turned during the round: only the kind slot is decremented. Exact value proved."
  },
  {
   "property": "C37",
   "status": "partial",
   "theorems": [
    "MJ.C37_unseen_by_player_partial",
    "MJ.C37_unseen_by_player_violated"
   ],
   "note": "Same defect as C36; exact value proved."
  },
  {
   "property": "C38",
   "status": "partial",
   "theorems": [
    "MJ.C38_remaining_draws_partial",
    "MJ.C38_remaining_draws_violated"
   ],
   "note": "False: kans and new indicators are subtracted too. Exact value proved."
  },
  {
   "property": "C39",
   "status": "proved",
   "theorems": [
    "MJ.C39_points",
    "MJ.C39_stick"
   ],
   "note": ""
  },
  {
   "property": "C40",
   "status": "proved",
   "theorems": [
    "MJ.C40_riichi",
    "MJ.C40_permanent"
   ],
   "note": ""
  },
  {
   "property": "C41",
   "status": "proved",
   "theorems": [
    "MJ.C41_menzen"
   ],
   "note": ""
  },
  {
   "property": "C42",
   "status": "proved",
   "theorems": [
    "MJ.C42_draws",
    "MJ.C42_discards"
   ],
   "note": ""
  },
  {
   "property": "C43",
   "status": "proved",
   "theorems": [
    "MJ.C43_halfturns"
   ],
   "note": ""
  },
  {
   "property": "C44",
   "status": "proved",
   "theorems": [
    "MJ.C44_tokens",
    "MJ.C44_count"
   ],
   "note": ""
  },
  {
   "property": "C45",
   "status": "proved",
   "theorems": [
    "MJ.C45_positions"
   ],
   "note": ""
  },
  {
   "property": "C46",
   "status": "partial",
   "theorems": [
    "MJ.C46_sees_event_partial",
    "MJ.C46_sees_event_violated"
   ],
   "note": "False for every discard: the post-turn's position is the index of the discard's own token. Holds for added kans."
  },
  {
   "property": "C47",
   "status": "partial",
   "theorems": [
    "MJ.C47_snapshot_partial",
    "MJ.C47_snapshot_violated"
   ],
   "note": "False: hand, unseen tiles, closed flags and melds are stored by reference. The copied fields are proved fixed; a concrete pair of continuations shows the shared fields change."
  },
  {
   "property": "C48",
   "status": "proved",
   "theorems": [
    "MJ.C48_resolved",
    "MJ.C48_unmarked",
    "MJ.C48_move_resolves"
   ],
   "note": ""
  },
  {
   "property": "C49",
   "status": "partial",
   "theorems": [
    "MJ.C49_win_marked_violated"
   ],
   "note": "False: no win decision is ever marked executed in any reachable state."
  },
  {
   "property": "C50",
   "status": "proved",
   "theorems": [
    "MJ.C50_marks",
    "MJ.C50_one_list"
   ],
   "note": ""
  },
  {
   "property": "C51",
   "status": "partial",
   "theorems": [
    "MJ.C51_ippatsu_violated"
   ],
   "note": "False: with any evaluator the result equals the one with the ippatsu question always answered no, for logs in which riichi is declared by the player who has drawn."
  },
  {
   "property": "C52",
   "status": "proved",
   "theorems": [
    "MJ.C52_tenhou_chiihou"
   ],
   "note": ""
  },
  {
   "property": "C53",
   "status": "partial",
   "theorems": [
    "MJ.C53_seat_wind_violated",
    "MJ.C53_seat_wind_partial"
   ],
   "note": "False: all players are evaluated with the wind of round number mod 4."
  },
  {
   "property": "C54",
   "status": "proved",
   "theorems": [
    "MJ.C54_ends_with_result",
    "MJ.C54_errors"
   ],
   "note": ""
  },
  {
   "property": "C55",
   "status": "proved",
   "theorems": [
    "MJ.C55_rounds_independent",
    "MJ.C55_round_error"
   ],
   "note": ""
  },
  {
   "property": "C56",
   "status": "partial",
   "theorems": [
    "MJ.C56_impossible_violated",
    "MJ.C56_impossible_partial",
    "MJ.C56_accepted_iff"
   ],
   "note": "False: only the drawer's own hand is checked. C56_accepted_iff says exactly which logs with documented meld codes are accepted."
  },
  {
   "property": "C57",
   "status": "proved",
   "theorems": [
    "MJ.C57_full_hands"
   ],
   "note": ""
  },
  {
   "property": "C58",
   "status": "proved",
   "theorems": [
    "MJ.C58_tokens",
    "MJ.C58_no_future"
   ],
   "note": "The theorems cover every row of all three heads, for half-turn lists with four decision lists per post-turn (proved for all accepted logs); build_tensors raising is a value."
  },
  {
   "property": "C59",
   "status": "partial",
   "theorems": [
    "MJ.C59_discard_rows_partial",
    "MJ.C59_discard_allowed_violated",
    "MJ.C59_held_before_partial"
   ],
   "note": "False: the mask is computed from the hand at the end of the round (shared array). Mask and label are characterised exactly; at the time of the discard the kind is in the hand."
  },
  {
   "property": "C60",
   "status": "partial",
   "theorems": [
    "MJ.C60_labels_partial",
    "MJ.C60_labels_violated"
   ],
   "note": "False: the label is 2 (riichi) whenever no kan is executed, whatever the player did, even when the mask forbids riichi. The actual label is characterised exactly."
  },
  {
   "property": "C61",
   "status": "proved",
   "theorems": [
    "MJ.C61_own_masks"
   ],
   "note": ""
  },
  {
   "property": "C62",
   "status": "proved",
   "theorems": [
    "MJ.C62_call_rows"
   ],
   "note": ""
  },
  {
   "property": "C63",
   "status": "partial",
   "theorems": [
    "MJ.C63_hand_channel_partial",
    "MJ.C63_hand_channel_violated"
   ],
   "note": "False: all deciders get the hand of the player of the attached state object (the player who moved)."
  },
  {
   "property": "C64",
   "status": "proved",
   "theorems": [
    "MJ.C64_batches",
    "MJ.C64_empty"
   ],
   "note": ""
  },
  {
   "property": "C65",
   "status": "proved",
   "theorems": [
    "MJ.C65_thermometer"
   ],
   "note": ""
  },
  {
   "property": "C66",
   "status": "proved",
   "theorems": [
    "MJ.C66_ordered"
   ],
   "note": ""
  },
  {
   "property": "C67",
   "status": "partial",
   "theorems": [
    "MJ.C67_basic_sees_player_violated",
    "MJ.C67_basic_sees_player_partial"
   ],
   "note": "The player embedding is masked out for discards, melds and riichi for all tables; exact characterisation of when the player is visible."
  },
  {
   "property": "C68",
   "status": "proved",
   "theorems": [
    "MJ.C68_ordered_relative",
    "MJ.C68_ordered_shift"
   ],
   "note": ""
  },
  {
   "property": "C69",
   "status": "partial",
   "theorems": [
    "MJ.C69_padding_zero",
    "MJ.C69_lookups_violated",
    "MJ.C69_lookups_partial"
   ],
   "note": "Lookups stay in range for tokens the processor produces, not for every 64-bit value."
  },
  {
   "property": "C70",
   "status": "proved",
   "theorems": [
    "MJ.C70_epoch",
    "MJ.C70_fresh"
   ],
   "note": "process is an arbitrary function from file names to results or exceptions; exceptions outside Exception are not modelled."
  },
  {
   "property": "C71",
   "status": "proved",
   "theorems": [
    "MJ.C71_full",
    "MJ.C71_zero"
   ],
   "note": ""
  },
  {
   "property": "C72",
   "status": "proved",
   "theorems": [
    "MJ.C72_fatal"
   ],
   "note": ""
  },
  {
   "property": "C73",
   "status": "partial",
   "theorems": [
    "MJ.C73_highest",
    "MJ.C73_order",
    "MJ.C73_number",
    "MJ.C73_number_only",
    "MJ.C73_ignored",
    "MJ.C73_unanchored_violated"
   ],
   "note": "Proved for all files the wildcard does not match and all proper checkpoints. False for other files the wildcard matches: the regular expression is not anchored, so backup files count."
  },
  {
   "property": "C74",
   "status": "proved",
   "theorems": [
    "MJ.C74_resume",
    "MJ.C74_partial_write_blocks"
   ],
   "note": "Files not matched by the wildcard may be in the directory. A checkpoint cut off while being written blocks resumption (second theorem); loading an incomplete file is modelled as raising."
  },
  {
   "property": "C75",
   "status": "proved",
   "theorems": [
    "MJ.C75_bounds",
    "MJ.C75_warmup",
    "MJ.C75_decay",
    "MJ.C75_after_end"
   ],
   "note": "Over the reals; floating point is not modelled."
  },
  {
   "property": "C76",
   "status": "proved",
   "theorems": [
    "MJ.C76_restores",
    "MJ.C76_restores_inner"
   ],
   "note": ""
  },
  {
   "property": "C77",
   "status": "proved",
   "theorems": [
    "MJ.C77_terminates",
    "MJ.C77_depth_14",
    "MJ.normalValue_fuel"
   ],
   "note": "Fuel stands for the recursion depth."
  },
  {
   "property": "C78",
   "status": "proved",
   "theorems": [
    "MJ.C78_decomposition"
   ],
   "note": ""
  },
  {
   "property": "C79",
   "status": "proved",
   "theorems": [
    "MJ.C79_complete"
   ],
   "note": ""
  },
  {
   "property": "C80",
   "status": "partial",
   "theorems": [
    "MJ.C80_chitoitsu",
    "MJ.C80_kokushi_partial",
    "MJ.C80_kokushi_violated"
   ],
   "note": "The seven-pairs part holds. The thirteen-orphans part is false when a terminal or honour is held three times (2 is subtracted, so 12 kinds look complete), when none is held (14), and with a red five of characters, which YAOCHU_TENSOR includes; proved otherwise."
  },
  {
   "property": "C81",
   "status": "proved",
   "theorems": [
    "MJ.C81_ordered_distinguishes"
   ],
   "note": ""
  },
  {
   "property": "C82",
   "status": "partial",
   "theorems": [
    "MJ.C82_no_empty_batch_violated",
    "MJ.C82_empty_batch_raises"
   ],
   "note": "False: when the last files of a directory are skipped, the last batch is empty, and the basic and convolutional models raise on it."
  },
  {
   "property": "C83",
   "status": "proved",
   "theorems": [
    "MJ.C83_steps",
    "MJ.C83_every_1000"
   ],
   "note": ""
  },
  {
   "property": "C84",
   "status": "proved",
   "theorems": [
    "MJ.C84_validation",
    "MJ.C84_games",
    "MJ.C84_no_loss"
   ],
   "note": ""
  },
  {
   "property": "C85",
   "status": "partial",
   "theorems": [
    "MJ.C85_schedule_continues_violated",
    "MJ.C85_factors_partial"
   ],
   "note": "False: the scheduler is created anew in every run and its state is not saved."
  },
  {
   "property": "C86",
   "status": "proved",
   "theorems": [
    "MJ.C86_loss_nonneg",
    "MJ.C86_forbidden_probability",
    "MJ.C86_forbidden_label"
   ],
   "note": "One sample, over the reals."
  },
  {
   "property": "C87",
   "status": "proved",
   "theorems": [
    "MJ.C87_positions",
    "MJ.C87_players",
    "MJ.C87_bounded"
   ],
   "note": "Over the reals."
  },
  {
   "property": "C88",
   "status": "proved",
   "theorems": [
    "MJ.C88_tenpai"
   ],
   "note": ""
  },
  {
   "property": "C89",
   "status": "partial",
   "theorems": [
    "MJ.C89_fifth_tile_violated",
    "MJ.C88_tenpai"
   ],
   "note": "False: after taking a triplet of four equal tiles the search also continues without the fourth tile, which bypasses the correction for it. C88 says exactly which hands get value 0."
  },
  {
   "property": "C90",
   "status": "partial",
   "theorems": [
    "MJ.C90_red_violated",
    "MJ.C90_red_never_complete",
    "MJ.C90_red_never_tenpai"
   ],
   "note": "False: a red five is counted twice in the sum that gives the number of called melds. Every hand of 3k+2 tiles with a red five gets at least 1, every hand of 3k+1 tiles with two gets at least 2."
  },
  {
   "property": "C91",
   "status": "partial",
   "theorems": [
    "MJ.C91_minimal_violated",
    "MJ.C91_within",
    "MJ.C91_smallest_partial",
    "MJ.C91_near_partial",
    "MJ.C91_discard",
    "MJ.C78_decomposition",
    "MJ.C79_complete",
    "MJ.C88_tenpai"
   ],
   "note": "False for three tiles of one kind beside two of each of the next two kinds. For every legal hand of at most 14 tiles the value is the smallest distance or one more, and exactly the smallest if no kind is held three times beside two of each of the next two; a discard lowers it by at most one. Exact for complete and waiting hands (C79, C88)."
  },
  {
   "property": "C92",
   "status": "partial",
   "theorems": [
    "MJ.C92_open_hand_violated",
    "MJ.C92_solve_value"
   ],
   "note": "False: both formulas are also applied to open hands. solve is the minimum of the three values."
  },
  {
   "property": "C93",
   "status": "proved",
   "theorems": [
    "MJ.C93_tiles",
    "MJ.C93_covers"
   ],
   "note": ""
  },
  {
   "property": "C94",
   "status": "proved",
   "theorems": [
    "MJ.C94_samples"
   ],
   "note": ""
  },
  {
   "property": "C95",
   "status": "proved",
   "theorems": [
    "MJ.C95_logits_independent",
    "MJ.C95_loss_mean"
   ],
   "note": ""
  },
  {
   "property": "C96",
   "status": "partial",
   "theorems": [
    "MJ.C96_validation_mean_violated",
    "MJ.C96_validation_mean_partial",
    "MJ.C96_validation_mean_iff",
    "MJ.C96_no_samples"
   ],
   "note": "False: the mean loss of each head in each batch counts the same, whatever the number of samples. It is the mean over the decisions, whatever the losses are, exactly if all of them have equally many samples. It raises exactly if there are no samples at all."
  },
  {
   "property": "C97",
   "status": "proved",
   "theorems": [
    "MJ.C97_forbidden_below"
   ],
   "note": "The parameters of the final layer norm and output layer are assumed not to be astronomically large (absolute value at most 1000 is enough)."
  },
  {
   "property": "C98",
   "status": "partial",
   "theorems": [
    "MJ.C98_padding_attention_violated",
    "MJ.C98_padding_alike_partial"
   ],
   "note": "False: there is no attention mask, so every padding position always has positive weight in every head. In the ordered model all padding positions of a sample have the same encoder output and weight."
  },
  {
   "property": "C99",
   "status": "partial",
   "theorems": [
    "MJ.C99_influence_violated",
    "MJ.C99_dead",
    "MJ.C99_influence_partial"
   ],
   "note": "False: in the ordered model the key and query parameters of the self-attention layers of the decoder have no influence, because the sequence has length one; in all models the biases of the keys have none, because softmax does not change when a constant is added, and the dead rows of the tables (C150). Proved: exactly these single parameters have no influence (C99_influence_partial, for models with at least one decoder block); they have none with dropout either (C99_dead). Tables of positions and players are not trained and not counted. Real numbers instead of floats; of GELU only that it is not constant."
  }
 ]
}