{
 "claims": [
  {
   "property": "C01",
   "status": "proved",
   "theorems": [
    "Verif.C01_defined_iff",
    "Verif.C01_ref_defined_iff",
    "Verif.C01_defined_correct",
    "Verif.C01_ref_defined_correct",
    "Verif.C01_ref_overflows_where_firmware_does_not",
    "Verif.C01_no_undefined_behaviour",
    "Verif.C01_negative_error_faults",
    "Verif.C01_em_error_overflow",
    "Verif.C01_em_error_boundary",
    "Verif.C01_track_error_overflow"
   ],
   "note": "No undefined behaviour for all pts under explicit bounds on the errors (C01_no_undefined_behaviour); for sane pts the exact condition is proved for firmware and reference (C01_defined_iff, C01_ref_defined_iff), with correctness of every defined run. Outside the bounds the code does overflow; witnesses are proved (C01_negative_error_faults, C01_em_error_overflow, C01_track_error_overflow, C01_ref_overflows_where_firmware_does_not)."
  },
  {
   "property": "C02",
   "status": "partial",
   "theorems": [
    "Verif.C02_fw_ref_agree_partial",
    "Verif.C02_fw_ref_agree_simple_partial",
    "Verif.C02_fw_spec",
    "Verif.C02_ref_spec",
    "Verif.C02_ref_ghosts",
    "Verif.C02_no_ghosts",
    "Verif.C02_false_keep",
    "Verif.C02_false_data",
    "Verif.C02_false_scale",
    "Verif.C02_false_ghost",
    "Verif.C02_agree_iff_all",
    "Verif.C02_agree_iff"
   ],
   "note": "False as a statement about all valid inputs: C02_false_keep, C02_false_scale and C02_false_ghost are concrete events on which firmware and reference disagree. Firmware and reference are each proved equal to one parametrised specification (C02_fw_spec, C02_ref_spec, on every valid event), and C02_agree_iff_all says exactly on which valid events pf_equals accepts everything, with no condition on empty slots. The partial theorems give agreement from conditions that exclude the three differences."
  },
  {
   "property": "C03",
   "status": "proved",
   "theorems": [
    "Verif.C03_charged_copy",
    "Verif.C03_charged_kept_iff"
   ],
   "note": "The copy theorem holds for every run that ends; the exact keep condition for tracks of positive pt on inputs for which the arithmetic is exact (Valid, which every Physical input is)."
  },
  {
   "property": "C04",
   "status": "proved",
   "theorems": [
    "Verif.C04_charged_id",
    "Verif.C04_muon_no_em_link",
    "Verif.C04_muon_no_calo_energy",
    "Verif.C04_muon_no_em_energy"
   ],
   "note": "Ids on Valid inputs; that muon tracks contribute nothing to the EM and calorimeter sums is for all inputs."
  },
  {
   "property": "C05",
   "status": "proved",
   "theorems": [
    "Verif.C05_em_link",
    "Verif.C05_em_link_unique"
   ],
   "note": "All inputs and all array sizes."
  },
  {
   "property": "C06",
   "status": "proved",
   "theorems": [
    "Verif.C06_calo_link",
    "Verif.C06_calo_link_unique",
    "Verif.C06_window_wraps"
   ],
   "note": "Tracks with non-negative pt and error whose window pt - 2 err fits 16 bits; C06_window_wraps shows the last condition is needed."
  },
  {
   "property": "C07",
   "status": "proved",
   "theorems": [
    "Verif.C07_photons"
   ],
   "note": "Valid inputs."
  },
  {
   "property": "C08",
   "status": "proved",
   "theorems": [
    "Verif.C08_neutrals_top",
    "Verif.C08_neutrals_memory_independent",
    "Verif.C08_padding_leaks_memory"
   ],
   "note": "Non-negative calorimeter pts and no more selected slots than clusters; C08_padding_leaks_memory shows what happens with more slots."
  },
  {
   "property": "C09",
   "status": "proved",
   "theorems": [
    "Verif.C09_neutral_bounded"
   ],
   "note": "Valid inputs."
  },
  {
   "property": "C10",
   "status": "proved",
   "theorems": [
    "Verif.C10_muons",
    "Verif.C10_muons_exhaustive"
   ],
   "note": "Non-negative track pts; every run that ends. The two theorems together cover all cases."
  },
  {
   "property": "C11",
   "status": "proved",
   "theorems": [
    "Verif.C11_empty_event"
   ],
   "note": "Every run that ends; muon pts may even be non-zero."
  },
  {
   "property": "C12",
   "status": "proved",
   "theorems": [
    "Verif.C12_nonneg_outputs"
   ],
   "note": "Proved without the condition on the sums: non-negative input pts are enough."
  },
  {
   "property": "C13",
   "status": "proved",
   "theorems": [
    "Verif.C13_track_order",
    "Verif.C13_order_matters_with_muons"
   ],
   "note": "Holds when no muon has positive pt; C13_order_matters_with_muons shows that the hypothesis is needed."
  },
  {
   "property": "C14",
   "status": "proved",
   "theorems": [
    "Verif.C14_em_subtraction"
   ],
   "note": "For every link matrix, with sums and differences that fit 16 bits."
  },
  {
   "property": "C15",
   "status": "partial",
   "theorems": [
    "Verif.C15_ref_protects_partial",
    "Verif.C15_fw_never_protects",
    "Verif.C15_fw_counterexample"
   ],
   "note": "Proved for the reference (C15_ref_protects_partial); false for the firmware, which has no such protection (C15_fw_never_protects, C15_fw_counterexample)."
  },
  {
   "property": "C16",
   "status": "proved",
   "theorems": [
    "Verif.C16_sorters_equal",
    "Verif.C16_sorter_spec",
    "Verif.C16_sorter_order"
   ],
   "note": "All inputs, sizes and previous contents of the output, for every object type with a pt."
  },
  {
   "property": "C17",
   "status": "proved",
   "theorems": [
    "Verif.C17_pack_in_roundtrip",
    "Verif.C17_pack_in_injective",
    "Verif.C17_empty",
    "Verif.C17_unpack_in_any",
    "Verif.C17_unpack_example"
   ],
   "note": "All sizes that fit the channel array and all previous contents of the words. Unpacking is also characterised on words that were not packed by the code."
  },
  {
   "property": "C18",
   "status": "proved",
   "theorems": [
    "Verif.C18_pack_out_roundtrip",
    "Verif.C18_unpack_out_any"
   ],
   "note": "All sizes that fit the channel array; C20 gives the fault otherwise. Unpacking is also characterised on words that were not packed by the code."
  },
  {
   "property": "C19",
   "status": "proved",
   "theorems": [
    "Verif.C19_wrapped_eq_plain"
   ],
   "note": "Equality of runs, faults included."
  },
  {
   "property": "C20",
   "status": "proved",
   "theorems": [
    "Verif.C20_pack_in_outcome",
    "Verif.C20_pack_in_layout",
    "Verif.C20_pack_out_outcome",
    "Verif.C20_pack_out_layout",
    "Verif.C20_configs_fit",
    "Verif.C20_configs_use",
    "Verif.C20_ctp7_unguarded",
    "Verif.C20_unpack_in_outcome",
    "Verif.C20_unpack_out_outcome"
   ],
   "note": "Exact outcome (ok, assertion, out of bounds) for all sizes; the three configurations of the repository by evaluation; C20_ctp7_unguarded is a finding."
  },
  {
   "property": "C21",
   "status": "proved",
   "theorems": [
    "Verif.C21_dr2_exact",
    "Verif.C21_dr2_torus",
    "Verif.C21_dr2_metric",
    "Verif.C21_dr2_cap"
   ],
   "note": "All coordinates; the torus is specified independently as the least squared distance over all representatives."
  },
  {
   "property": "C22",
   "status": "proved",
   "theorems": [
    "Verif.C22_puppi_agree",
    "Verif.C22_ref_defined_iff",
    "Verif.C22_ref_overflow",
    "Verif.C22_hw_defined_iff",
    "Verif.C22_hw_value",
    "Verif.C22_safe"
   ],
   "note": "C22_hw_defined_iff and C22_hw_value say exactly when the firmware is defined and what it then gives."
  },
  {
   "property": "C23",
   "status": "proved",
   "theorems": [
    "Verif.C23_scales_down"
   ],
   "note": "Every weight table, every run that ends, including those in which the sum wraps."
  },
  {
   "property": "C24",
   "status": "proved",
   "theorems": [
    "Verif.C24_local",
    "Verif.C24_isolated",
    "Verif.C24_full_pt"
   ],
   "note": "Every weight table. Full pt needs the sum between the end of the table and 2^31."
  },
  {
   "property": "C25",
   "status": "proved",
   "theorems": [
    "Verif.C25_index_exact",
    "Verif.C25_division_accuracy",
    "Verif.C25_division_wraps"
   ],
   "note": "All table arguments; C25_division_wraps is the one-unit denominator excluded by the hypothesis."
  },
  {
   "property": "C26",
   "status": "proved",
   "theorems": [
    "Verif.C26_firmware_eq_ref",
    "Verif.C26_negative_pt_differs"
   ],
   "note": "Non-negative pts and up to 64 sectors; C26_negative_pt_differs shows the first condition is needed."
  },
  {
   "property": "C27",
   "status": "proved",
   "theorems": [
    "Verif.C27_bins_saturate",
    "Verif.C27_order_irrelevant",
    "Verif.C27_bin_unchecked"
   ],
   "note": "Every sequence of calls with valid bins and non-negative pts; out-of-range bins are out of bounds (C27_bin_unchecked)."
  },
  {
   "property": "C28",
   "status": "proved",
   "theorems": [
    "Verif.C28_first_max",
    "Verif.C28_empty"
   ],
   "note": "Every histogram content, up to 64 sectors."
  },
  {
   "property": "C29",
   "status": "proved",
   "theorems": [
    "Verif.C29_binning",
    "Verif.C29_center"
   ],
   "note": "All 1024 values of z0."
  },
  {
   "property": "C30",
   "status": "proved",
   "theorems": [
    "Verif.C30_oob_iff",
    "Verif.C30_oob_witness",
    "Verif.C30_result"
   ],
   "note": "The expectation is false; proved exactly when it fails (iff), a witness, and the full result otherwise."
  },
  {
   "property": "C31",
   "status": "proved",
   "theorems": [
    "Verif.C31_tree_sums",
    "Verif.C31_tree_limit"
   ],
   "note": "Up to 64 rows, the most the code reserves room for; beyond it is out of bounds (C31_tree_limit)."
  },
  {
   "property": "C32",
   "status": "proved",
   "theorems": [
    "Verif.C32_agree",
    "Verif.C32_small_region_oob",
    "Verif.C32_default_build_oob"
   ],
   "note": "Needs a region to have at least as many slots as a sector-eta slice; otherwise the firmware writes out of bounds (see the C36/C32 witnesses in Props/Regionizer)."
  },
  {
   "property": "C33",
   "status": "proved",
   "theorems": [
    "Verif.C33_fw_content",
    "Verif.C33_ref_content",
    "Verif.C33_sorted",
    "Verif.C33_concrete"
   ],
   "note": "Every run that ends, all sizes, for EM clusters, calorimeter clusters and tracks alike; exact list, ties included."
  },
  {
   "property": "C34",
   "status": "proved",
   "theorems": [
    "Verif.C34_nothing_invented",
    "Verif.C34_nothing_lost"
   ],
   "note": "Every run of the reference that ends; with C32 and C33 also of the firmware."
  },
  {
   "property": "C35",
   "status": "proved",
   "theorems": [
    "Verif.C35_cover",
    "Verif.C35_no_overflow"
   ],
   "note": "All positions in the detector."
  },
  {
   "property": "C36",
   "status": "proved",
   "theorems": [
    "Verif.C36_muons",
    "Verif.C36_global_position",
    "Verif.C36_cover",
    "Verif.C36_concrete"
   ],
   "note": "All sector contents with phi inside the sector for muons of positive pt."
  },
  {
   "property": "C37",
   "status": "proved",
   "theorems": [
    "Verif.C37_ref_consumes",
    "Verif.C37_fw_consumes",
    "Verif.C37_later_data_ignored",
    "Verif.C37_muon_consumes"
   ],
   "note": "All streams; both the successful and the failing case."
  },
  {
   "property": "C38",
   "status": "proved",
   "theorems": [
    "Verif.C38_place",
    "Verif.C38_stream",
    "Verif.C38_bad_nmux"
   ],
   "note": "For streams of fewer than 2^32 events (the frame counter is 32 bits). Placement holds for every printed link, including the incomplete group written by the destructor."
  },
  {
   "property": "C39",
   "status": "proved",
   "theorems": [
    "Verif.C39_numbering_partial",
    "Verif.C39_counterexample",
    "Verif.C39_numbering"
   ],
   "note": "C39_numbering gives the number of every row; C39_numbering_partial says when the last group continues the numbering (an iff); C39_counterexample shows wrong numbers."
  },
  {
   "property": "C40",
   "status": "proved",
   "theorems": [
    "Verif.C40_all_printed_partial",
    "Verif.C40_default_drops",
    "Verif.C40_counterexample",
    "Verif.C40_exact"
   ],
   "note": "C40_exact is an iff for every number of links; C40_default_drops and C40_counterexample are what it means for the default."
  },
  {
   "property": "C41",
   "status": "proved",
   "theorems": [
    "Verif.C41_ctp7",
    "Verif.C41_muxed"
   ],
   "note": "Events of at most 144 words; for multiplexing other than 1 the file is empty (C41_muxed)."
  },
  {
   "property": "C42",
   "status": "proved",
   "theorems": [
    "Verif.C42_bytes",
    "Verif.C42_sizes",
    "Verif.C42_objects",
    "Verif.C42_regions",
    "Verif.C42_event"
   ],
   "note": "All objects and all following bytes; counts below 2^32."
  },
  {
   "property": "C43",
   "status": "proved",
   "theorems": [
    "Verif.C43_outcome",
    "Verif.C43_undefined",
    "Verif.C43_end",
    "Verif.C43_nothing"
   ],
   "note": "The expectation that it returns true is false: control reaches the end of a non-void function (proved for every file with four bytes or more). Proved: the exact outcome, and false for ever at the end of the file. C43_nothing: the event of a reader that found nothing."
  },
  {
   "property": "C44",
   "status": "proved",
   "theorems": [
    "Verif.C44_barrel_cut",
    "Verif.C44_regions",
    "Verif.C44_no_region_oob",
    "Verif.C44_event_zero_skips",
    "Verif.C44_fall_false"
   ],
   "note": "Proved under the two conditions and assuming the missing return yields true; C44_no_region_oob, C44_event_zero_skips and C44_fall_false show what happens otherwise."
  },
  {
   "property": "C45",
   "status": "proved",
   "theorems": [
    "Verif.C45_truncate_pad",
    "Verif.C45_track",
    "Verif.C45_cluster",
    "Verif.C45_muon"
   ],
   "note": "All lists; coordinates preserved when they fit 10 bits."
  },
  {
   "property": "C46",
   "status": "proved",
   "theorems": [
    "Verif.C46_neutrals",
    "Verif.C46_chargeds",
    "Verif.C46_fields",
    "Verif.C46_after_pf"
   ],
   "note": "All outputs and track lists, the failing assertion included."
  },
  {
   "property": "C47",
   "status": "proved",
   "theorems": [
    "Verif.C47_equals_iff",
    "Verif.C47_equivalence",
    "Verif.C47_blind_spots",
    "Verif.C47_count_nonzero"
   ],
   "note": "All pairs of objects. The fields each comparison ignores are listed in C47_blind_spots."
  },
  {
   "property": "C48",
   "status": "proved",
   "theorems": [
    "Verif.C48_more_charged_more_pt",
    "Verif.C48_wrap_counterexample"
   ],
   "note": "Every non-decreasing table (C56 shows the real one is); sums that fit an int."
  },
  {
   "property": "C49",
   "status": "proved",
   "theorems": [
    "Verif.C49_firmware_eq_ref",
    "Verif.C49_padding_differs",
    "Verif.C49_empty_differs"
   ],
   "note": "Up to 64 tracks with z0 the binning accepts; every table that agrees with the reference binning."
  },
  {
   "property": "C50",
   "status": "proved",
   "theorems": [
    "Verif.C50_flag_partial",
    "Verif.C50_flag_counterexample",
    "Verif.C50_flag"
   ],
   "note": "C50_flag is exact; C50_flag_partial is the intended meaning below 16 tracks per bin, C50_flag_counterexample its failure at 16."
  },
  {
   "property": "C51",
   "status": "proved",
   "theorems": [
    "Verif.C51_firmware",
    "Verif.C51_reference",
    "Verif.C51_puppi_reference",
    "Verif.C51_puppi_firmware",
    "Verif.C51_puppi_firmware_all",
    "Verif.C51_shift"
   ],
   "note": "All inputs, faults included."
  },
  {
   "property": "C52",
   "status": "proved",
   "theorems": [
    "Verif.C52_dronly_link",
    "Verif.C52_dronly_agrees",
    "Verif.C52_alternatives_differ"
   ],
   "note": "The agreement with the reference on all inputs; the description for sensible track pts and errors."
  },
  {
   "property": "C53",
   "status": "proved",
   "theorems": [
    "Verif.C53_firmware",
    "Verif.C53_reference",
    "Verif.C53_leaks"
   ],
   "note": "All inputs and all memories, faults included."
  },
  {
   "property": "C54",
   "status": "proved",
   "theorems": [
    "Verif.C54_trichotomy",
    "Verif.C54_exit_0_iff",
    "Verif.C54_exit_1_iff",
    "Verif.C54_undefined_iff",
    "Verif.C54_physical_passes",
    "Verif.C54_builds",
    "Verif.C54_standard_undefined",
    "Verif.C54_fails",
    "Verif.C54_init",
    "Verif.C54_any_memory"
   ],
   "note": "Every well-formed dump, every configuration; the three cases are exhaustive and exclusive. C54_init and C54_any_memory: the contents of the arrays before each region is read have no effect."
  },
  {
   "property": "C55",
   "status": "proved",
   "theorems": [
    "Verif.C55_there_and_back",
    "Verif.C55_back_and_there",
    "Verif.C55_range_needed"
   ],
   "note": "All objects."
  },
  {
   "property": "C56",
   "status": "proved",
   "theorems": [
    "Verif.C56_range",
    "Verif.C56_monotone",
    "Verif.C56_accurate",
    "Verif.C56_more_charged_more_pt",
    "Verif.C56_threshold"
   ],
   "note": "Floating point is abstracted: any implementation whose operations are within the stated errors."
  },
  {
   "property": "C57",
   "status": "proved",
   "theorems": [
    "Verif.C57_vtx_out_of_bounds",
    "Verif.C57_builds",
    "Verif.C57_bench_undefined",
    "Verif.C57_no_region",
    "Verif.C57_columns_equal"
   ],
   "note": "The undefined behaviour with the sizes of the repository is proved for every event; the rest is for sizes that make the read legal."
  },
  {
   "property": "C58",
   "status": "proved",
   "theorems": [
    "Verif.C58_passes",
    "Verif.C58_first_bad",
    "Verif.C58_errors",
    "Verif.C58_small_region",
    "Verif.C58_odd_tracks",
    "Verif.C58_never_mismatch",
    "Verif.C58_source"
   ],
   "note": "Every well-formed dump."
  },
  {
   "property": "C59",
   "status": "proved",
   "theorems": [
    "Verif.C59_mp7_input",
    "Verif.C59_mp7_output",
    "Verif.C59_mp7_parts",
    "Verif.C59_nomux",
    "Verif.C59_odd_tracks",
    "Verif.C59_dump_in",
    "Verif.C59_dump_in_loses_tracks",
    "Verif.C59_dump_out"
   ],
   "note": "Any number of tests, any contents."
  },
  {
   "property": "C60",
   "status": "proved",
   "theorems": [
    "Verif.C60_passes",
    "Verif.C60_wrong_sectors",
    "Verif.C60_agree",
    "Verif.C60_no_errors",
    "Verif.C60_input_file",
    "Verif.C60_output_files",
    "Verif.C60_errors_ignored"
   ],
   "note": "Every dump whose first 250 events have twelve sectors, and the case of a wrong number of sectors."
  },
  {
   "property": "C61",
   "status": "proved",
   "theorems": [
    "Verif.C61_pt",
    "Verif.C61_pt_roundtrip",
    "Verif.C61_min_pt",
    "Verif.C61_eta",
    "Verif.C61_eta_roundtrip",
    "Verif.C61_phi_roundtrip",
    "Verif.C61_phi",
    "Verif.C61_cluster",
    "Verif.C61_propagated",
    "Verif.C61_muon",
    "Verif.C61_two_codes",
    "Verif.C61_rounding_exists",
    "Verif.C61_input",
    "Verif.C61_input_fault",
    "Verif.C61_input_roundtrip",
    "Verif.C61_vtx_collision",
    "Verif.C61_firmware",
    "Verif.C61_puppiW",
    "Verif.C61_zpv",
    "Verif.C61_zpv_differ",
    "Verif.C61_reading",
    "Verif.C61_particle",
    "Verif.C61_charge"
   ],
   "note": "Rounding is abstracted: any rounding to nearest. An instance is shown to exist (C61_rounding_exists)."
  },
  {
   "property": "C62",
   "status": "proved",
   "theorems": [
    "Verif.C62_event",
    "Verif.C62_bench"
   ],
   "note": "Every sequence of values of rand()."
  },
  {
   "property": "C63",
   "status": "proved",
   "theorems": [
    "Verif.C63_leftover",
    "Verif.C63_defined",
    "Verif.C63_region"
   ],
   "note": "Every sequence of values of rand()."
  },
  {
   "property": "C64",
   "status": "proved",
   "theorems": [
    "Verif.C64_mp7",
    "Verif.C64_mp7_injective",
    "Verif.C64_ctp7",
    "Verif.C64_headers",
    "Verif.C64_word_columns",
    "Verif.C64_quad_columns",
    "Verif.C64_link_columns",
    "Verif.C64_ctp7_width"
   ],
   "note": "All rows and all board names without a line break."
  },
  {
   "property": "C65",
   "status": "proved",
   "theorems": [
    "Verif.C65_human_readable",
    "Verif.C65_dump_in",
    "Verif.C65_dump_out",
    "Verif.C65_other_lines"
   ],
   "note": "All events."
  },
  {
   "property": "C66",
   "status": "proved",
   "theorems": [
    "Verif.C66_no_double_counting",
    "Verif.C66_no_double_counting_ref",
    "Verif.C66_nothing_lost",
    "Verif.C66_nothing_lost_ref"
   ],
   "note": "Valid inputs, firmware and reference."
  },
  {
   "property": "C67",
   "status": "proved",
   "theorems": [
    "Verif.C67_pattern",
    "Verif.C67_mp7_files",
    "Verif.C67_ctp7_files",
    "Verif.C67_status",
    "Verif.C67_vectors",
    "Verif.C67_verdict",
    "Verif.C67_human_readable"
   ],
   "note": "Every well-formed dump, including the event at which the bench stops."
  },
  {
   "property": "C68",
   "status": "proved",
   "theorems": [
    "Verif.C68_part_alone",
    "Verif.C68_part_alone_ref",
    "Verif.C68_part_alone_ref_all",
    "Verif.C68_neutrals",
    "Verif.C68_array_sizes",
    "Verif.C68_ghost"
   ],
   "note": "Valid inputs, all splittings of an event."
  },
  {
   "property": "C69",
   "status": "proved",
   "theorems": [
    "Verif.C69_order"
   ],
   "note": "Valid inputs, all permutations; ties are excluded because the code decides them by index."
  },
  {
   "property": "C70",
   "status": "proved",
   "theorems": [
    "Verif.C70_status",
    "Verif.C70_output",
    "Verif.C70_messages",
    "Verif.C70_verdict",
    "Verif.C70_signs",
    "Verif.C70_builds"
   ],
   "note": "Full text of the standard output as lines of words and numbers (widths and punctuation are not part of the property)."
  },
  {
   "property": "C71",
   "status": "proved",
   "theorems": [
    "Verif.C71_cover",
    "Verif.C71_distance",
    "Verif.C71_neighbours",
    "Verif.C71_muon",
    "Verif.C71_every_muon",
    "Verif.C71_event",
    "Verif.C71_border",
    "Verif.C71_em_had",
    "Verif.C71_tk_em",
    "Verif.C71_tk_had",
    "Verif.C71_declared",
    "Verif.C71_concrete",
    "Verif.C71_declared_eta"
   ],
   "note": "Composition of regionize_ref / regionize_muon_ref with pfalgo3_full and its link functions."
  },
  {
   "property": "C72",
   "status": "proved",
   "theorems": [
    "Verif.C72_report",
    "Verif.C72_run",
    "Verif.C72_passes",
    "Verif.C72_first_bad",
    "Verif.C72_odd_tracks"
   ],
   "note": "C72_run covers every file; C72_passes and C72_first_bad give the text for dumps as in C58; with an odd number of tracks (C72_odd_tracks) the MP7 build is out of bounds, so that case is for the other builds."
  },
  {
   "property": "C73",
   "status": "proved",
   "theorems": [
    "Verif.C73_run",
    "Verif.C73_passes",
    "Verif.C73_wrong_sectors",
    "Verif.C73_match",
    "Verif.C73_fraction",
    "Verif.C73_resolution"
   ],
   "note": "C73_run covers every file; C73_passes and C73_wrong_sectors give the text for dumps as in C60. The floating-point summary is for every rounding to nearest (PrintsNearest)."
  },
  {
   "property": "C74",
   "status": "proved",
   "theorems": [
    "Verif.C74_same_program",
    "Verif.C74_output",
    "Verif.C74_completes"
   ],
   "note": "C74_completes needs NALLTRACK \u2264 NTRACK, which fails in the builds of the repository (C57_builds); C22_safe is the overflow bound on its own."
  },
  {
   "property": "C75",
   "status": "proved",
   "theorems": [
    "Verif.C75_order",
    "Verif.C75_order_calo",
    "Verif.C75_order_track",
    "Verif.C75_order_muon",
    "Verif.C75_order_pf",
    "Verif.C75_sorted_region",
    "Verif.C75_deserialize",
    "Verif.C75_link_calo",
    "Verif.C75_link_em",
    "Verif.C75_link_builds",
    "Verif.C75_dummy"
   ],
   "note": "The size mix-up in link_ref is harmless in all builds (C75_link_builds)."
  },
  {
   "property": "C76",
   "status": "proved",
   "theorems": [
    "Verif.C76_output",
    "Verif.C76_six"
   ],
   "note": "For tables that bin as the reference does (SvTables, as C62)."
  },
  {
   "property": "C77",
   "status": "proved",
   "theorems": [
    "Verif.C77_same",
    "Verif.C77_trace",
    "Verif.C77_memory"
   ],
   "note": "Decimals printed with %.2f are within a hundredth plus the rounding of the float expression (Cents); C77_same and C77_memory need no hypothesis."
  },
  {
   "property": "C78",
   "status": "proved",
   "theorems": [
    "Verif.C78_never_more",
    "Verif.C78_central",
    "Verif.C78_photon",
    "Verif.C78_cone_iff",
    "Verif.C78_no_region",
    "Verif.C78_concrete"
   ],
   "note": "Tracks are taken to be kept by particle flow (C78_central) or soft enough to be kept (C78_photon); regions that receive more than they hold are excluded (Fits)."
  },
  {
   "property": "C79",
   "status": "proved",
   "theorems": [
    "Verif.C79_frames",
    "Verif.C79_exchanged",
    "Verif.C79_reordered",
    "Verif.C79_concrete"
   ],
   "note": "The two maps are not compatible: C79_frames says what is read, C79_exchanged when it is right anyway, C79_reordered that exchanging two blocks of links repairs it, C79_concrete what it does to a pion and a neutral hadron (electron and photon)."
  },
  {
   "property": "C80",
   "status": "proved",
   "theorems": [
    "Verif.C80_window",
    "Verif.C80_window_ref",
    "Verif.C80_hole",
    "Verif.C80_concrete"
   ],
   "note": "Exact electron window for firmware and reference; C80_hole is what happens at exact balance, C80_concrete an electron found at cluster pt 99 and 101 and lost at 100."
  },
  {
   "property": "C81",
   "status": "proved",
   "theorems": [
    "Verif.C81_sorter",
    "Verif.C81_push",
    "Verif.C81_merge",
    "Verif.C81_upwards_differs",
    "Verif.C81_em_adders",
    "Verif.C81_had_adders",
    "Verif.C81_tree_level"
   ],
   "note": "The hardware reading of unroll/partition pragmas is Spec/Hardware.lean (tick, Adders); C81_upwards_differs shows that the direction of the loops matters."
  },
  {
   "property": "C82",
   "status": "proved",
   "theorems": [
    "Verif.C82_pipeline",
    "Verif.C82_one_port",
    "Verif.C82_far_apart",
    "Verif.C82_late"
   ],
   "note": "The schedule (read at the start, write lat cycles later) is a parameter: the pragma fixes the interval and the single port, not the latency."
  },
  {
   "property": "C83",
   "status": "proved",
   "theorems": [
    "Verif.C83_voters_count",
    "Verif.C83_window",
    "Verif.C83_no_votes",
    "Verif.C83_one_sided"
   ],
   "note": "Stated for the firmware chain; the reference gives the same vertex by C26."
  },
  {
   "property": "C84",
   "status": "proved",
   "theorems": [
    "Verif.C84_harder",
    "Verif.C84_shift",
    "Verif.C84_mirror",
    "Verif.C84_mirror_tie"
   ],
   "note": "Stated for the firmware chain; the reference gives the same vertex by C26. C84_mirror_tie is the tie that is not reflected."
  },
  {
   "property": "C85",
   "status": "proved",
   "theorems": [
    "Verif.C85_board_iff",
    "Verif.C85_board",
    "Verif.C85_regions_physical",
    "Verif.C85_system_iff",
    "Verif.C85_system",
    "Verif.C85_differs"
   ],
   "note": "EM clusters, tracks and muons go through the reference regionizer on both sides, as the repository has no firmware for them. The condition on each region is that of C02; C85_differs is a sensible event on which the two chains differ."
  },
  {
   "property": "C86",
   "status": "proved",
   "theorems": [
    "Verif.C86_turn",
    "Verif.C86_flip",
    "Verif.C86_muon_half_turn",
    "Verif.C86_muon_flip",
    "Verif.C86_muon_sixth_turn",
    "Verif.C86_boards_half_turn",
    "Verif.C86_boards_flip",
    "Verif.C86_board_motion"
   ],
   "note": "C86_muon_sixth_turn is the witness that 60 degrees is not a symmetry of the muons. The reflection is of eta only; z0, and so the vertex, stays (C84 has the reflection of the vertex)."
  },
  {
   "property": "C87",
   "status": "proved",
   "theorems": [
    "Verif.C87_reference",
    "Verif.C87_firmware",
    "Verif.C87_order_overflow"
   ],
   "note": "C87_order_overflow is the witness for the firmware."
  },
  {
   "property": "C88",
   "status": "proved",
   "theorems": [
    "Verif.C88_term",
    "Verif.C88_sum",
    "Verif.C88_puppi",
    "Verif.C88_double"
   ],
   "note": "C88_term and C88_sum bound the integer sum, C88_puppi the PUPPI pt; C88_double is the near-extreme case."
  },
  {
   "property": "C89",
   "status": "proved",
   "theorems": [
    "Verif.C89_regions",
    "Verif.C89_pts",
    "Verif.C89_muons",
    "Verif.C89_vertex",
    "Verif.C89_system",
    "Verif.C89_tie"
   ],
   "note": "Permutations within a sector. C89_tie is the concrete tie for which the regions differ."
  },
  {
   "property": "C90",
   "status": "proved",
   "theorems": [
    "Verif.C90_reach",
    "Verif.C90_reach_ref",
    "Verif.C90_puppi",
    "Verif.C90_numbers",
    "Verif.C90_chain"
   ],
   "note": "C90_reach (firmware), C90_reach_ref (reference, errors of empty slots ignored), C90_puppi; EM slots count even if empty, because empty EM slots attract tracks. C90_chain: influence over 174 units, so the bound 178.75 cannot be improved below 174."
  },
  {
   "property": "C91",
   "status": "proved",
   "theorems": [
    "Verif.C91_around",
    "Verif.C91_around_ref",
    "Verif.C91_puppi",
    "Verif.C91_chain",
    "Verif.C91_example",
    "Verif.C91_free_slot",
    "Verif.C91_detector",
    "Verif.C91_detector_example",
    "Verif.C91_detectors",
    "Verif.C91_detectors_puppi",
    "Verif.C91_detectors_example"
   ],
   "note": "C91_around, C91_around_ref, C91_puppi, C91_chain, C91_detector, C91_detectors, C91_detectors_puppi. Hypotheses: Packed (empty slots cleared, EM slots empty from some point on, at least one free EM slot; C91_free_slot shows the last is needed). C91_detector takes EM, calorimeter and track regions from the regionizer and assumes that the muon regions agree around the point; C91_detectors takes the muon regions from regionize_muon_ref as well (muon phi in [-180, 180], one muon slot to spare in the region)."
  },
  {
   "property": "C92",
   "status": "proved",
   "theorems": [
    "Verif.C92_one_more_track",
    "Verif.C92_one_more_track_ref",
    "Verif.C92_near_em"
   ],
   "note": "Firmware and reference, only the larger event is assumed to be within the limits. C92_near_em is the counterexample near an EM cluster."
  },
  {
   "property": "C93",
   "status": "proved",
   "theorems": [
    "Verif.C93_cones",
    "Verif.C93_rounding",
    "Verif.C93_links",
    "Verif.C93_confirmed",
    "Verif.C93_filled",
    "Verif.C93_reaches",
    "Verif.C93_wrap"
   ],
   "note": "C93_cones is exact: 84, 525, 756 and 8404 are no sums of two squares, so the integer cuts lose nothing. C93_wrap is the limit of the ten bits."
  },
  {
   "property": "C94",
   "status": "proved",
   "theorems": [
    "Verif.C94_one_more_calo",
    "Verif.C94_one_more_calo_ref",
    "Verif.C94_ref_loses"
   ],
   "note": "Charged candidates and photons without any condition in the firmware; neutrals, and the reference, if the new cluster takes over no EM cluster. C94_ref_loses is the counterexample otherwise."
  },
  {
   "property": "C95",
   "status": "proved",
   "theorems": [
    "Verif.C95_one_more_word",
    "Verif.C95_one_more_word_fw",
    "Verif.C95_at_most_four"
   ],
   "note": "Calorimeter clusters, EM clusters and tracks. Which of the two cases occurs is C34_nothing_lost."
  },
  {
   "property": "C96",
   "status": "proved",
   "theorems": [
    "Verif.C96_track_anywhere",
    "Verif.C96_track_anywhere_ref",
    "Verif.C96_from_the_links"
   ],
   "note": "C96_track_anywhere is the same for one region with any inputs. A region that overflows is C95, a track near an EM cluster C92_near_em."
  },
  {
   "property": "C97",
   "status": "proved",
   "theorems": [
    "Verif.C97_without_muons",
    "Verif.C97_without_muons_ref",
    "Verif.C97_one_more_muon",
    "Verif.C97_one_more_muon_ref",
    "Verif.C97_thrice"
   ],
   "note": "C97_thrice is a finding: charged candidates and muons overlap, and two muons can share a track."
  },
  {
   "property": "C98",
   "status": "proved",
   "theorems": [
    "Verif.C98_one_more_em",
    "Verif.C98_one_more_em_ref",
    "Verif.C98_vanish"
   ],
   "note": "Firmware and reference; the one loss the specification allows is shown by C98_vanish."
  },
  {
   "property": "C99",
   "status": "proved",
   "theorems": [
    "Verif.C99_one_more_muon_word",
    "Verif.C99_one_more_muon",
    "Verif.C99_lost",
    "Verif.C99_concrete"
   ],
   "note": "A sector with its phi window open below; the lower edge is covered by C99_one_more_muon_word. The loss outside the room condition is shown by C99_lost."
  },
  {
   "property": "C100",
   "status": "proved",
   "theorems": [
    "Verif.C100_calo_anywhere",
    "Verif.C100_calo_anywhere_ref",
    "Verif.C100_from_the_links"
   ],
   "note": "Firmware for every cluster; for the reference when the new cluster takes over no EM cluster. Sensible links and room in the region are hypotheses; a concrete case meets them."
  },
  {
   "property": "C101",
   "status": "proved",
   "theorems": [
    "Verif.C101_muon_anywhere",
    "Verif.C101_muon_anywhere_ref",
    "Verif.C101_from_the_sectors"
   ],
   "note": "Firmware and reference. The region needs a free muon slot; C99_lost shows what happens in a full muon sector."
  },
  {
   "property": "C102",
   "status": "proved",
   "theorems": [
    "Verif.C102_metric",
    "Verif.C102_linked",
    "Verif.C102_linked_ref",
    "Verif.C102_slack",
    "Verif.C102_by_distance",
    "Verif.C102_blunt"
   ],
   "note": "Firmware link array and reference search. C102_blunt shows the slack is needed."
  },
  {
   "property": "C103",
   "status": "proved",
   "theorems": [
    "Verif.C103_single",
    "Verif.C103_single_ref",
    "Verif.C103_photon",
    "Verif.C103_charged_hadron",
    "Verif.C103_electron",
    "Verif.C103_equal_pt",
    "Verif.C103_muon",
    "Verif.C103_lost_electron",
    "Verif.C103_near_centre"
   ],
   "note": "Closed formula for one track, EM cluster, calorimeter cluster and muon. C103_equal_pt and C103_lost_electron show where an ideal electron is lost. C103_near_centre: the condition on empty EM slots (`far`) is needed."
  },
  {
   "property": "C104",
   "status": "proved",
   "theorems": [
    "Verif.C104_copies",
    "Verif.C104_regions",
    "Verif.C104_same_everywhere",
    "Verif.C104_responsible",
    "Verif.C104_example",
    "Verif.C104_edge"
   ],
   "note": "C104_regions (every region, firmware and reference), C104_copies, C104_same_everywhere, C104_responsible, C104_example, C104_edge. A muon exactly on the phi border of a region may or may not be in it (MuonSeen); SeesAll asks for it strictly inside. The firmware regionizers are covered through C32."
  },
  {
   "property": "C105",
   "status": "proved",
   "theorems": [
    "Verif.C105_mp7",
    "Verif.C105_ctp7",
    "Verif.C105_human_readable",
    "Verif.C105_direct_dump",
    "Verif.C105_bench_no_dump",
    "Verif.C105_bench_null",
    "Verif.C105_bench",
    "Verif.C105_regionizer_stops",
    "Verif.C105_regionizer",
    "Verif.C105_vertex_stops",
    "Verif.C105_vertex",
    "Verif.C105_example",
    "Verif.C105_example_regionizer"
   ],
   "note": "Which of two faults of the first test shows when only the second dump is null is not modelled; a write to an open file does not fail."
  },
  {
   "property": "C106",
   "status": "proved",
   "theorems": [
    "Verif.C106_board",
    "Verif.C106_vertex",
    "Verif.C106_system",
    "Verif.C106_alone",
    "Verif.C106_full",
    "Verif.C106_sharp",
    "Verif.C106_example"
   ],
   "note": "C106_board (one region), C106_vertex, C106_system (the chain), C106_alone, C106_full, C106_sharp, C106_example. The weight table is a parameter (C56 says what the program puts in it). As in C103/C104 no empty EM slot is within 9 units of the track and closer to it than its cluster, and p^2 < 2^21 keeps the sum in an int (beyond, C22/C48)."
  },
  {
   "property": "C107",
   "status": "proved",
   "theorems": [
    "Verif.C107_patterns",
    "Verif.C107_dump_out",
    "Verif.C107_dump_in",
    "Verif.C107_room",
    "Verif.C107_vertex",
    "Verif.C107_mismatches",
    "Verif.C107_links",
    "Verif.C107_clusters",
    "Verif.C107_inputs",
    "Verif.C107_sizes",
    "Verif.C107_vertex_report"
   ],
   "note": "C107_patterns, C107_dump_out, C107_dump_in, C107_vertex, C107_vertex_report, C107_sizes, C107_mismatches, C107_links, C107_clusters, C107_inputs, and C107_room (exactly when the dumps keep their columns)."
  },
  {
   "property": "C108",
   "status": "proved",
   "theorems": [
    "Verif.C108_list",
    "Verif.C108_photon",
    "Verif.C108_photon_alone",
    "Verif.C108_neutral",
    "Verif.C108_hadron",
    "Verif.C108_electron",
    "Verif.C108_lost_electron",
    "Verif.C108_muon"
   ],
   "note": "C108_list: the list of particles of a region with at most one object of each kind, for firmware and reference. The other theorems combine it with the rounding of C61, the cones of C93 and the formulas of C103; margins in the hypotheses cover the rounding. C108_lost_electron is a finding about the code: equal pt of track and cluster loses the electron."
  },
  {
   "property": "C109",
   "status": "proved",
   "theorems": [
    "Verif.C109_isolated",
    "Verif.C109_isolated_ref"
   ],
   "note": "Combines the locality of C68 with the formula of C103, which C103 itself proves only for events with nothing else. busy_hadron and busy_electron are the hypotheses for two groups of one event with five particles, followed by what comes out. The reference needs that empty track slots carry no error (as C68_part_alone_ref)."
  },
  {
   "property": "C110",
   "status": "proved",
   "theorems": [
    "Verif.C110_groups",
    "Verif.C110_groups_ref",
    "Verif.C110_agree"
   ],
   "note": "C110_groups (firmware), C110_groups_ref, C110_agree. busy_grouped and busy_alone are the hypotheses for an event with five particles, followed by its full list of candidates. Empty track slots must carry no error, as in C68."
  },
  {
   "property": "C111",
   "status": "proved",
   "theorems": [
    "Verif.C111_parts",
    "Verif.C111_parts_ref"
   ],
   "note": "C111_parts (firmware), C111_parts_ref. Parts list their objects in the order of the event as far as ties are decided by it (Ordered, as C68). busy_fallsApart is an event of five particles in two parts."
  },
  {
   "property": "C112",
   "status": "proved",
   "theorems": [
    "Verif.C112_groups"
   ],
   "note": "Closed form of the PF and PUPPI outputs for any number of well separated particles; busy_puppi is the hypotheses for an event with five particles, followed by its PUPPI pts. Room for all clusters in the list of neutrals is assumed."
  },
  {
   "property": "C113",
   "status": "proved",
   "theorems": [
    "Verif.C113_radians",
    "Verif.C113_puppi"
   ],
   "note": "The margins over 0.2, 0.04, 0.1 and 0.12 are the rounding of directions to a quarter of a degree (C93). busy_directions, busy_filled and busy_apart are the hypotheses for an event with five particles."
  },
  {
   "property": "C114",
   "status": "proved",
   "theorems": [
    "Verif.C114_hadrons",
    "Verif.C114_list",
    "Verif.C114_regions"
   ],
   "note": "wide_groups and wide_one are the hypotheses for a region with five particles, followed by its particles; the example after C114_hadrons has two hadrons of 30 GeV, one with an excess. Empty EM slots stand at the centre of the region and take part in the links, hence the distances from the centre; excesses between 1.22 and 1.23 errors (plus or minus 0.41 GeV) are left open."
  },
  {
   "property": "C115",
   "status": "proved",
   "theorems": [
    "Verif.C115_pieces",
    "Verif.C115_particles",
    "Verif.C115_puppi"
   ],
   "note": "The example after C115_particles has a charged hadron with an excess and a photon. If EM slots are left empty they stand at the centre of the region, so tracks and calorimeter clusters then have to be 0.0462 and 0.1062 away from it. Excesses in the gap between the two thresholds of C108, and electrons whose track and cluster differ by under 0.26 GeV, are left open by Isolated; C115_pieces does not need either."
  },
  {
   "property": "C116",
   "status": "proved",
   "theorems": [
    "Verif.C116_groups",
    "Verif.C116_pieces",
    "Verif.C116_bench"
   ],
   "note": "The example runs the bench on a region with a flagged cluster and a track error of one unit, which C54_physical_passes excludes, and a photon."
  },
  {
   "property": "C117",
   "status": "proved",
   "theorems": [
    "Verif.C117_header",
    "Verif.C117_any_number",
    "Verif.C117_repeat",
    "Verif.C117_trailer",
    "Verif.C117_middle",
    "Verif.C117_bench",
    "Verif.C117_trailer_bench"
   ],
   "note": "Cuts at the borders of fields of the event; inside a region or a number the same happens from there on but is not stated. That a vector of an arbitrary 32-bit size can be allocated is assumed, and that the function without return gives true (by the standard it is undefined, C43)."
  }
 ]
}