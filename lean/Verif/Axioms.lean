import Verif.Props.Around
import Verif.Props.AroundDet
import Verif.Props.AroundMuon
import Verif.Props.Arrival
import Verif.Props.BramHist
import Verif.Props.Chain
import Verif.Props.Columns
import Verif.Props.Columns2
import Verif.Props.Compare
import Verif.Props.Cones
import Verif.Props.DetSym
import Verif.Props.Detector
import Verif.Props.DetectorDeclared
import Verif.Props.DetectorPuppi
import Verif.Props.Discrete
import Verif.Props.Discrete2
import Verif.Props.Dump
import Verif.Props.DumpCut
import Verif.Props.DumpCutBench
import Verif.Props.Encoding
import Verif.Props.FileOpen
import Verif.Props.Geometry
import Verif.Props.Groups
import Verif.Props.GroupsCones
import Verif.Props.GroupsHadrons
import Verif.Props.GroupsList
import Verif.Props.GroupsPuppi
import Verif.Props.Hardware
import Verif.Props.Influence
import Verif.Props.Isolated
import Verif.Props.LinkIdeal
import Verif.Props.LoneDet
import Verif.Props.Memory
import Verif.Props.OneMore
import Verif.Props.OneMoreCalo
import Verif.Props.OneMoreCaloChain
import Verif.Props.OneMoreChain
import Verif.Props.OneMoreEm
import Verif.Props.OneMoreLink
import Verif.Props.OneMoreMuonChain
import Verif.Props.OneMoreMuonLink
import Verif.Props.PFAgree
import Verif.Props.PFAgree2
import Verif.Props.PFBalance
import Verif.Props.PFDefined
import Verif.Props.PFEnergy
import Verif.Props.PFLinks
import Verif.Props.PFOutputs
import Verif.Props.PFPart
import Verif.Props.PFSafety
import Verif.Props.PFTest
import Verif.Props.PFTestFiles
import Verif.Props.PFTestInit
import Verif.Props.PFTestOutput
import Verif.Props.PFTrace
import Verif.Props.ParticleList
import Verif.Props.Particles
import Verif.Props.Parts
import Verif.Props.Pieces
import Verif.Props.PiecesBench
import Verif.Props.Puppi
import Verif.Props.PuppiIdeal
import Verif.Props.PuppiOrder
import Verif.Props.PuppiTable
import Verif.Props.PuppiTest
import Verif.Props.PuppiTestOutput
import Verif.Props.RandomInputs
import Verif.Props.Regionizer
import Verif.Props.RegionizerFiles
import Verif.Props.RegionizerTest
import Verif.Props.RegionizerTestOutput
import Verif.Props.RoundTrip
import Verif.Props.Serializer
import Verif.Props.Serializer2
import Verif.Props.SimpleVtx
import Verif.Props.SimpleVtxTest
import Verif.Props.SimpleVtxTestOutput
import Verif.Props.Single
import Verif.Props.SinglePuppi
import Verif.Props.Symmetry
import Verif.Props.System
import Verif.Props.Text
import Verif.Props.Unpack
import Verif.Props.Unused
import Verif.Props.VertexTest
import Verif.Props.VertexTestOutput
import Verif.Props.VertexUse
import Verif.Props.WithoutMuons
/-! Axioms of every property theorem (output of the build). -/
#print axioms Verif.C91_around
#print axioms Verif.C91_around_ref
#print axioms Verif.C91_puppi
#print axioms Verif.C91_chain
#print axioms Verif.C91_example
#print axioms Verif.C91_free_slot
#print axioms Verif.C91_detector
#print axioms Verif.C91_detector_example
#print axioms Verif.C91_detectors
#print axioms Verif.C91_detectors_puppi
#print axioms Verif.C91_detectors_example
#print axioms Verif.C89_regions
#print axioms Verif.C89_pts
#print axioms Verif.C89_muons
#print axioms Verif.C89_vertex
#print axioms Verif.C89_system
#print axioms Verif.C89_tie
#print axioms Verif.C26_firmware_eq_ref
#print axioms Verif.C26_negative_pt_differs
#print axioms Verif.C27_bins_saturate
#print axioms Verif.C27_order_irrelevant
#print axioms Verif.C27_bin_unchecked
#print axioms Verif.C28_first_max
#print axioms Verif.C28_empty
#print axioms Verif.C29_binning
#print axioms Verif.C29_center
#print axioms Verif.C79_frames
#print axioms Verif.C79_exchanged
#print axioms Verif.C79_reordered
#print axioms Verif.C79_concrete
#print axioms Verif.C107_patterns
#print axioms Verif.C107_dump_out
#print axioms Verif.C107_dump_in
#print axioms Verif.C107_room
#print axioms Verif.C107_vertex
#print axioms Verif.C107_mismatches
#print axioms Verif.C107_links
#print axioms Verif.C107_clusters
#print axioms Verif.C107_inputs
#print axioms Verif.C107_sizes
#print axioms Verif.C107_vertex_report
#print axioms Verif.C47_equals_iff
#print axioms Verif.C47_equivalence
#print axioms Verif.C47_blind_spots
#print axioms Verif.C47_count_nonzero
#print axioms Verif.C93_cones
#print axioms Verif.C93_rounding
#print axioms Verif.C93_links
#print axioms Verif.C93_confirmed
#print axioms Verif.C93_filled
#print axioms Verif.C93_reaches
#print axioms Verif.C93_wrap
#print axioms Verif.C86_turn
#print axioms Verif.C86_flip
#print axioms Verif.C86_muon_half_turn
#print axioms Verif.C86_muon_flip
#print axioms Verif.C86_muon_sixth_turn
#print axioms Verif.C86_boards_half_turn
#print axioms Verif.C86_boards_flip
#print axioms Verif.C86_board_motion
#print axioms Verif.C71_cover
#print axioms Verif.C71_distance
#print axioms Verif.C71_neighbours
#print axioms Verif.C71_muon
#print axioms Verif.C71_every_muon
#print axioms Verif.C71_event
#print axioms Verif.C71_border
#print axioms Verif.C71_em_had
#print axioms Verif.C71_tk_em
#print axioms Verif.C71_tk_had
#print axioms Verif.C71_declared
#print axioms Verif.C71_concrete
#print axioms Verif.C71_declared_eta
#print axioms Verif.C78_never_more
#print axioms Verif.C78_central
#print axioms Verif.C78_photon
#print axioms Verif.C78_cone_iff
#print axioms Verif.C78_no_region
#print axioms Verif.C78_concrete
#print axioms Verif.C61_pt
#print axioms Verif.C61_pt_roundtrip
#print axioms Verif.C61_min_pt
#print axioms Verif.C61_eta
#print axioms Verif.C61_eta_roundtrip
#print axioms Verif.C61_phi_roundtrip
#print axioms Verif.C61_phi
#print axioms Verif.C61_cluster
#print axioms Verif.C61_propagated
#print axioms Verif.C61_muon
#print axioms Verif.C61_two_codes
#print axioms Verif.C61_rounding_exists
#print axioms Verif.C61_input
#print axioms Verif.C61_input_fault
#print axioms Verif.C61_input_roundtrip
#print axioms Verif.C61_vtx_collision
#print axioms Verif.C61_firmware
#print axioms Verif.C61_puppiW
#print axioms Verif.C61_zpv
#print axioms Verif.C61_zpv_differ
#print axioms Verif.C61_reading
#print axioms Verif.C61_particle
#print axioms Verif.C61_charge
#print axioms Verif.C42_bytes
#print axioms Verif.C42_sizes
#print axioms Verif.C42_objects
#print axioms Verif.C42_regions
#print axioms Verif.C42_event
#print axioms Verif.C43_outcome
#print axioms Verif.C43_undefined
#print axioms Verif.C43_end
#print axioms Verif.C43_nothing
#print axioms Verif.C44_barrel_cut
#print axioms Verif.C44_regions
#print axioms Verif.C44_no_region_oob
#print axioms Verif.C44_event_zero_skips
#print axioms Verif.C44_fall_false
#print axioms Verif.C45_truncate_pad
#print axioms Verif.C45_track
#print axioms Verif.C45_cluster
#print axioms Verif.C45_muon
#print axioms Verif.C46_neutrals
#print axioms Verif.C46_chargeds
#print axioms Verif.C46_fields
#print axioms Verif.C46_after_pf
#print axioms Verif.C117_header
#print axioms Verif.C117_any_number
#print axioms Verif.C117_repeat
#print axioms Verif.C117_trailer
#print axioms Verif.C117_middle
#print axioms Verif.C117_bench
#print axioms Verif.C117_trailer_bench
#print axioms Verif.C17_pack_in_roundtrip
#print axioms Verif.C17_pack_in_injective
#print axioms Verif.C17_empty
#print axioms Verif.C18_pack_out_roundtrip
#print axioms Verif.C19_wrapped_eq_plain
#print axioms Verif.C20_pack_in_outcome
#print axioms Verif.C20_pack_in_layout
#print axioms Verif.C20_pack_out_outcome
#print axioms Verif.C20_pack_out_layout
#print axioms Verif.C20_configs_fit
#print axioms Verif.C20_configs_use
#print axioms Verif.C20_ctp7_unguarded
#print axioms Verif.C105_mp7
#print axioms Verif.C105_ctp7
#print axioms Verif.C105_human_readable
#print axioms Verif.C105_direct_dump
#print axioms Verif.C105_bench_no_dump
#print axioms Verif.C105_bench_null
#print axioms Verif.C105_bench
#print axioms Verif.C105_regionizer_stops
#print axioms Verif.C105_regionizer
#print axioms Verif.C105_vertex_stops
#print axioms Verif.C105_vertex
#print axioms Verif.C105_example
#print axioms Verif.C105_example_regionizer
#print axioms Verif.C21_dr2_exact
#print axioms Verif.C21_dr2_torus
#print axioms Verif.C21_dr2_metric
#print axioms Verif.C21_dr2_cap
#print axioms Verif.C110_groups
#print axioms Verif.C110_groups_ref
#print axioms Verif.C110_agree
#print axioms Verif.C113_radians
#print axioms Verif.C113_puppi
#print axioms Verif.C114_hadrons
#print axioms Verif.C114_list
#print axioms Verif.C114_regions
#print axioms Verif.C112_groups
#print axioms Verif.C81_sorter
#print axioms Verif.C81_push
#print axioms Verif.C81_merge
#print axioms Verif.C81_upwards_differs
#print axioms Verif.C81_em_adders
#print axioms Verif.C81_had_adders
#print axioms Verif.C81_tree_level
#print axioms Verif.C82_pipeline
#print axioms Verif.C82_one_port
#print axioms Verif.C82_far_apart
#print axioms Verif.C82_late
#print axioms Verif.C90_reach
#print axioms Verif.C90_reach_ref
#print axioms Verif.C90_puppi
#print axioms Verif.C90_numbers
#print axioms Verif.C90_chain
#print axioms Verif.C109_isolated
#print axioms Verif.C109_isolated_ref
#print axioms Verif.C102_metric
#print axioms Verif.C102_linked
#print axioms Verif.C102_linked_ref
#print axioms Verif.C102_slack
#print axioms Verif.C102_by_distance
#print axioms Verif.C102_blunt
#print axioms Verif.C104_copies
#print axioms Verif.C104_regions
#print axioms Verif.C104_same_everywhere
#print axioms Verif.C104_responsible
#print axioms Verif.C104_example
#print axioms Verif.C104_edge
#print axioms Verif.C53_firmware
#print axioms Verif.C53_reference
#print axioms Verif.C53_leaks
#print axioms Verif.C92_one_more_track
#print axioms Verif.C92_one_more_track_ref
#print axioms Verif.C92_near_em
#print axioms Verif.C94_one_more_calo
#print axioms Verif.C94_one_more_calo_ref
#print axioms Verif.C94_ref_loses
#print axioms Verif.C100_calo_anywhere
#print axioms Verif.C100_calo_anywhere_ref
#print axioms Verif.C100_from_the_links
#print axioms Verif.C96_track_anywhere
#print axioms Verif.C96_track_anywhere_ref
#print axioms Verif.C96_from_the_links
#print axioms Verif.C98_one_more_em
#print axioms Verif.C98_one_more_em_ref
#print axioms Verif.C98_vanish
#print axioms Verif.C95_one_more_word
#print axioms Verif.C95_one_more_word_fw
#print axioms Verif.C95_at_most_four
#print axioms Verif.C101_muon_anywhere
#print axioms Verif.C101_muon_anywhere_ref
#print axioms Verif.C101_from_the_sectors
#print axioms Verif.C99_one_more_muon_word
#print axioms Verif.C99_one_more_muon
#print axioms Verif.C99_lost
#print axioms Verif.C99_concrete
#print axioms Verif.C02_fw_ref_agree_partial
#print axioms Verif.C02_fw_ref_agree_simple_partial
#print axioms Verif.C02_fw_spec
#print axioms Verif.C02_ref_spec
#print axioms Verif.C02_ref_ghosts
#print axioms Verif.C02_no_ghosts
#print axioms Verif.C02_false_keep
#print axioms Verif.C02_false_data
#print axioms Verif.C02_false_scale
#print axioms Verif.C02_false_ghost
#print axioms Verif.C15_ref_protects_partial
#print axioms Verif.C15_fw_never_protects
#print axioms Verif.C15_fw_counterexample
#print axioms Verif.C02_agree_iff_all
#print axioms Verif.C02_agree_iff
#print axioms Verif.C80_window
#print axioms Verif.C80_window_ref
#print axioms Verif.C80_hole
#print axioms Verif.C80_concrete
#print axioms Verif.C01_defined_iff
#print axioms Verif.C01_ref_defined_iff
#print axioms Verif.C01_defined_correct
#print axioms Verif.C01_ref_defined_correct
#print axioms Verif.C01_ref_overflows_where_firmware_does_not
#print axioms Verif.C66_no_double_counting
#print axioms Verif.C66_no_double_counting_ref
#print axioms Verif.C66_nothing_lost
#print axioms Verif.C66_nothing_lost_ref
#print axioms Verif.C05_em_link
#print axioms Verif.C05_em_link_unique
#print axioms Verif.C06_calo_link
#print axioms Verif.C06_calo_link_unique
#print axioms Verif.C06_window_wraps
#print axioms Verif.C14_em_subtraction
#print axioms Verif.C16_sorters_equal
#print axioms Verif.C16_sorter_spec
#print axioms Verif.C16_sorter_order
#print axioms Verif.C03_charged_copy
#print axioms Verif.C03_charged_kept_iff
#print axioms Verif.C04_charged_id
#print axioms Verif.C04_muon_no_em_link
#print axioms Verif.C04_muon_no_calo_energy
#print axioms Verif.C04_muon_no_em_energy
#print axioms Verif.C07_photons
#print axioms Verif.C08_neutrals_top
#print axioms Verif.C08_neutrals_memory_independent
#print axioms Verif.C08_padding_leaks_memory
#print axioms Verif.C09_neutral_bounded
#print axioms Verif.C10_muons
#print axioms Verif.C10_muons_exhaustive
#print axioms Verif.C13_track_order
#print axioms Verif.C13_order_matters_with_muons
#print axioms Verif.C68_part_alone
#print axioms Verif.C68_part_alone_ref
#print axioms Verif.C68_part_alone_ref_all
#print axioms Verif.C68_neutrals
#print axioms Verif.C68_array_sizes
#print axioms Verif.C68_ghost
#print axioms Verif.C69_order
#print axioms Verif.C01_no_undefined_behaviour
#print axioms Verif.C01_negative_error_faults
#print axioms Verif.C01_em_error_overflow
#print axioms Verif.C01_em_error_boundary
#print axioms Verif.C01_track_error_overflow
#print axioms Verif.C11_empty_event
#print axioms Verif.C12_nonneg_outputs
#print axioms Verif.C54_trichotomy
#print axioms Verif.C54_exit_0_iff
#print axioms Verif.C54_exit_1_iff
#print axioms Verif.C54_undefined_iff
#print axioms Verif.C54_physical_passes
#print axioms Verif.C54_builds
#print axioms Verif.C54_standard_undefined
#print axioms Verif.C54_fails
#print axioms Verif.C67_pattern
#print axioms Verif.C67_mp7_files
#print axioms Verif.C67_ctp7_files
#print axioms Verif.C67_status
#print axioms Verif.C67_vectors
#print axioms Verif.C67_verdict
#print axioms Verif.C67_human_readable
#print axioms Verif.C54_init
#print axioms Verif.C54_any_memory
#print axioms Verif.C70_status
#print axioms Verif.C70_output
#print axioms Verif.C70_messages
#print axioms Verif.C70_verdict
#print axioms Verif.C70_signs
#print axioms Verif.C70_builds
#print axioms Verif.C77_same
#print axioms Verif.C77_trace
#print axioms Verif.C77_memory
#print axioms Verif.C108_list
#print axioms Verif.C108_photon
#print axioms Verif.C108_photon_alone
#print axioms Verif.C108_neutral
#print axioms Verif.C108_hadron
#print axioms Verif.C108_electron
#print axioms Verif.C108_lost_electron
#print axioms Verif.C108_muon
#print axioms Verif.C111_parts
#print axioms Verif.C111_parts_ref
#print axioms Verif.C115_pieces
#print axioms Verif.C115_particles
#print axioms Verif.C115_puppi
#print axioms Verif.C116_groups
#print axioms Verif.C116_pieces
#print axioms Verif.C116_bench
#print axioms Verif.C22_puppi_agree
#print axioms Verif.C22_ref_defined_iff
#print axioms Verif.C22_ref_overflow
#print axioms Verif.C23_scales_down
#print axioms Verif.C24_local
#print axioms Verif.C24_isolated
#print axioms Verif.C24_full_pt
#print axioms Verif.C25_index_exact
#print axioms Verif.C25_division_accuracy
#print axioms Verif.C25_division_wraps
#print axioms Verif.C48_more_charged_more_pt
#print axioms Verif.C48_wrap_counterexample
#print axioms Verif.C88_term
#print axioms Verif.C88_sum
#print axioms Verif.C88_puppi
#print axioms Verif.C88_double
#print axioms Verif.C22_hw_defined_iff
#print axioms Verif.C22_hw_value
#print axioms Verif.C87_reference
#print axioms Verif.C87_firmware
#print axioms Verif.C87_order_overflow
#print axioms Verif.C56_range
#print axioms Verif.C56_monotone
#print axioms Verif.C56_accurate
#print axioms Verif.C56_more_charged_more_pt
#print axioms Verif.C56_threshold
#print axioms Verif.C57_vtx_out_of_bounds
#print axioms Verif.C57_builds
#print axioms Verif.C57_bench_undefined
#print axioms Verif.C57_no_region
#print axioms Verif.C57_columns_equal
#print axioms Verif.C22_safe
#print axioms Verif.C74_same_program
#print axioms Verif.C74_output
#print axioms Verif.C74_completes
#print axioms Verif.C63_leftover
#print axioms Verif.C63_defined
#print axioms Verif.C63_region
#print axioms Verif.C32_agree
#print axioms Verif.C32_small_region_oob
#print axioms Verif.C32_default_build_oob
#print axioms Verif.C33_fw_content
#print axioms Verif.C33_ref_content
#print axioms Verif.C33_sorted
#print axioms Verif.C34_nothing_invented
#print axioms Verif.C34_nothing_lost
#print axioms Verif.C35_cover
#print axioms Verif.C35_no_overflow
#print axioms Verif.C37_ref_consumes
#print axioms Verif.C37_fw_consumes
#print axioms Verif.C37_later_data_ignored
#print axioms Verif.C36_muons
#print axioms Verif.C36_global_position
#print axioms Verif.C36_cover
#print axioms Verif.C37_muon_consumes
#print axioms Verif.C33_concrete
#print axioms Verif.C36_concrete
#print axioms Verif.C59_mp7_input
#print axioms Verif.C59_mp7_output
#print axioms Verif.C59_mp7_parts
#print axioms Verif.C59_nomux
#print axioms Verif.C59_odd_tracks
#print axioms Verif.C59_dump_in
#print axioms Verif.C59_dump_in_loses_tracks
#print axioms Verif.C59_dump_out
#print axioms Verif.C58_passes
#print axioms Verif.C58_first_bad
#print axioms Verif.C58_errors
#print axioms Verif.C58_small_region
#print axioms Verif.C58_odd_tracks
#print axioms Verif.C58_never_mismatch
#print axioms Verif.C58_source
#print axioms Verif.C72_report
#print axioms Verif.C72_run
#print axioms Verif.C72_passes
#print axioms Verif.C72_first_bad
#print axioms Verif.C72_odd_tracks
#print axioms Verif.C55_there_and_back
#print axioms Verif.C55_back_and_there
#print axioms Verif.C55_range_needed
#print axioms Verif.C38_place
#print axioms Verif.C38_stream
#print axioms Verif.C39_numbering_partial
#print axioms Verif.C39_counterexample
#print axioms Verif.C40_all_printed_partial
#print axioms Verif.C40_default_drops
#print axioms Verif.C40_counterexample
#print axioms Verif.C41_ctp7
#print axioms Verif.C41_muxed
#print axioms Verif.C38_bad_nmux
#print axioms Verif.C39_numbering
#print axioms Verif.C40_exact
#print axioms Verif.C30_oob_iff
#print axioms Verif.C30_oob_witness
#print axioms Verif.C30_result
#print axioms Verif.C31_tree_sums
#print axioms Verif.C31_tree_limit
#print axioms Verif.C49_firmware_eq_ref
#print axioms Verif.C49_padding_differs
#print axioms Verif.C49_empty_differs
#print axioms Verif.C50_flag_partial
#print axioms Verif.C50_flag_counterexample
#print axioms Verif.C50_flag
#print axioms Verif.C62_event
#print axioms Verif.C62_bench
#print axioms Verif.C76_output
#print axioms Verif.C76_six
#print axioms Verif.C103_single
#print axioms Verif.C103_single_ref
#print axioms Verif.C103_photon
#print axioms Verif.C103_charged_hadron
#print axioms Verif.C103_electron
#print axioms Verif.C103_equal_pt
#print axioms Verif.C103_muon
#print axioms Verif.C103_lost_electron
#print axioms Verif.C103_near_centre
#print axioms Verif.C106_board
#print axioms Verif.C106_vertex
#print axioms Verif.C106_system
#print axioms Verif.C106_alone
#print axioms Verif.C106_full
#print axioms Verif.C106_sharp
#print axioms Verif.C106_example
#print axioms Verif.C51_firmware
#print axioms Verif.C51_reference
#print axioms Verif.C51_puppi_reference
#print axioms Verif.C51_puppi_firmware
#print axioms Verif.C51_puppi_firmware_all
#print axioms Verif.C51_shift
#print axioms Verif.C52_dronly_link
#print axioms Verif.C52_dronly_agrees
#print axioms Verif.C52_alternatives_differ
#print axioms Verif.C85_board_iff
#print axioms Verif.C85_board
#print axioms Verif.C85_regions_physical
#print axioms Verif.C85_system_iff
#print axioms Verif.C85_system
#print axioms Verif.C85_differs
#print axioms Verif.C64_mp7
#print axioms Verif.C64_mp7_injective
#print axioms Verif.C64_ctp7
#print axioms Verif.C64_headers
#print axioms Verif.C64_word_columns
#print axioms Verif.C64_quad_columns
#print axioms Verif.C64_link_columns
#print axioms Verif.C64_ctp7_width
#print axioms Verif.C65_human_readable
#print axioms Verif.C65_dump_in
#print axioms Verif.C65_dump_out
#print axioms Verif.C65_other_lines
#print axioms Verif.C20_unpack_in_outcome
#print axioms Verif.C17_unpack_in_any
#print axioms Verif.C20_unpack_out_outcome
#print axioms Verif.C18_unpack_out_any
#print axioms Verif.C17_unpack_example
#print axioms Verif.C75_order
#print axioms Verif.C75_order_calo
#print axioms Verif.C75_order_track
#print axioms Verif.C75_order_muon
#print axioms Verif.C75_order_pf
#print axioms Verif.C75_sorted_region
#print axioms Verif.C75_deserialize
#print axioms Verif.C75_link_calo
#print axioms Verif.C75_link_em
#print axioms Verif.C75_link_builds
#print axioms Verif.C75_dummy
#print axioms Verif.C60_passes
#print axioms Verif.C60_wrong_sectors
#print axioms Verif.C60_agree
#print axioms Verif.C60_no_errors
#print axioms Verif.C60_input_file
#print axioms Verif.C60_output_files
#print axioms Verif.C60_errors_ignored
#print axioms Verif.C73_run
#print axioms Verif.C73_passes
#print axioms Verif.C73_wrong_sectors
#print axioms Verif.C73_match
#print axioms Verif.C73_fraction
#print axioms Verif.C73_resolution
#print axioms Verif.C83_voters_count
#print axioms Verif.C83_window
#print axioms Verif.C83_no_votes
#print axioms Verif.C83_one_sided
#print axioms Verif.C84_harder
#print axioms Verif.C84_shift
#print axioms Verif.C84_mirror
#print axioms Verif.C84_mirror_tie
#print axioms Verif.C97_without_muons
#print axioms Verif.C97_without_muons_ref
#print axioms Verif.C97_one_more_muon
#print axioms Verif.C97_one_more_muon_ref
#print axioms Verif.C97_thrice
