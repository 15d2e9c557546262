{"id": "C01", "title": "pfalgo3_full is free of undefined behaviour on physical inputs", "statement": "If every track pt-error is non-negative and every pt-error (track or EM cluster) is small enough that the squared-error arithmetic fits in a C int, pfalgo3_full never indexes its 1/ptErr^2 table out of bounds and never overflows a signed int. A negative track pt-error does make it read outside the table, and huge errors do overflow. On events whose pts are sane (non-negative, sums within 16 bits) the condition is exact, for the firmware and for the reference: no undefined behaviour if and only if four times the squared error of each EM cluster with tracks, the sum of squared track errors of each calorimeter cluster and one and a half times that sum (firmware: for clusters with an excess; reference: for clusters with tracks) fit an int; and whenever a run on such an event has no undefined behaviour all its outputs are as specified.", "quantifier": "all contents of all input arrays, all array sizes (NTRACK, NCALO, NEMCALO, NMU, NSELCALO), all previous contents of the output arrays", "why_tests_cant": "UB shows up only at extreme values of 16-bit fields in particular combinations; 2^700 input space, and UB usually goes unnoticed when a test runs over it", "anchors": ["firmware/simple_fullpfalgo.cpp:pfalgo3_full", "firmware/simple_fullpfalgo.cpp:calc_dptscale", "firmware/simple_fullpfalgo.cpp:tk2calo_sumtk", "firmware/simple_fullpfalgo.cpp:tk2em_emalgo", "simple_fullpfalgo_ref.cpp:pfalgo3_full_ref"]}
{"id": "C02", "title": "firmware PF agrees with the reference PF", "statement": "On every physically valid input (non-negative pts and errors, empty slots all zero, sums within range) pfalgo3_full and pfalgo3_full_ref produce outputs that the project's pf_equals accepts slot by slot: charged, photons, neutrals, muons.", "quantifier": "all valid events and all array sizes", "why_tests_cant": "the test bench compares 500 events of one dump; agreement has to hold on every event (it does not: see the counterexamples for the keep flag and for ptErr = 1)", "anchors": ["firmware/simple_fullpfalgo.cpp:pfalgo3_full", "simple_fullpfalgo_ref.cpp:pfalgo3_full_ref", "utils/test_utils.cpp:pf_equals"]}
{"id": "C03", "title": "charged candidates are exact copies of kept tracks", "statement": "Output slot i of the charged list is either entirely zero or carries exactly track i's pt, eta, phi and z0. It is kept if and only if the track is a muon track, an electron track, has pt below the quality-dependent threshold (80 tight, 40 loose), or is linked to a calo cluster.", "quantifier": "all events, all sizes, every slot", "why_tests_cant": "per-slot equivalence over the whole input space", "anchors": ["firmware/simple_fullpfalgo.cpp:tk2calo_tkalgo", "firmware/simple_fullpfalgo.cpp:pfalgo3_full"]}
{"id": "C04", "title": "charged particle identification is exclusive", "statement": "A charged candidate's id is Electron, Muon or Charged hadron; Muon exactly for kept tracks claimed by a muon; a track claimed by a muon is never an electron and never pulls energy from an EM cluster or a calo cluster.", "quantifier": "all events, all sizes", "why_tests_cant": "needs every geometric configuration of muons, tracks and clusters", "anchors": ["firmware/simple_fullpfalgo.cpp:tk2em_elealgo", "firmware/simple_fullpfalgo.cpp:tk2em_drvals", "firmware/simple_fullpfalgo.cpp:tk2calo_tkalgo", "firmware/simple_fullpfalgo.cpp:tk2calo_sumtk"]}
{"id": "C05", "title": "track to EM-cluster link is the nearest cluster, ties to the lowest index", "statement": "A non-muon track is linked to at most one EM cluster: to cluster c if and only if c is within deltaR^2 < 84 and no cluster is closer and no lower-index cluster is as close. Muon tracks link to nothing.", "quantifier": "all tracks, all cluster arrays of any size", "why_tests_cant": "argmin with tie-breaking over arbitrary arrays", "anchors": ["firmware/simple_fullpfalgo.cpp:tk2em_link", "firmware/simple_fullpfalgo.cpp:pick_closest", "firmware/simple_fullpfalgo.cpp:tk2em_drvals", "firmware/simple_fullpfalgo.cpp:dr2_int_cap"]}
{"id": "C06", "title": "track to calo link is the best cluster in the combined dR/dpt metric", "statement": "A track links to at most one calo cluster. The linked cluster passes the pt and dR cuts (pt > max(0, trackPt - 2 ptErr), dR^2 < 756) and minimises dR^2 + scaled dpt^2 among all passing clusters, lowest index on ties; if some cluster passes the cuts the track is linked.", "quantifier": "all tracks with non-negative pt and pt-error and pt - 2 ptErr >= -32768 (below that the window wraps and a good cluster is missed: proved witness), all cluster arrays of any size", "why_tests_cant": "the 12-bit truncation and the cap at 5*DR2MAX must never corrupt the ordering, for any values", "anchors": ["firmware/simple_fullpfalgo.cpp:tk2calo_link_drdpt", "firmware/simple_fullpfalgo.cpp:tk2calo_drdptvals", "firmware/simple_fullpfalgo.cpp:dr2_dpt_int_cap", "firmware/simple_fullpfalgo.cpp:pick_closest"]}
{"id": "C07", "title": "photon pt comes from the EM cluster balance", "statement": "Photon slot i is null, or sits at EM cluster i's position with id Photon and pt equal to the cluster pt (no track linked) or to cluster pt minus linked track pt (excess above the error window). For non-negative inputs whose sums fit in 16 bits the photon pt is between 0 and the cluster pt.", "quantifier": "all events, all sizes, every slot", "why_tests_cant": "wrap-around of 16-bit subtraction can only be excluded by a proof", "anchors": ["firmware/simple_fullpfalgo.cpp:tk2em_emalgo", "firmware/simple_fullpfalgo.cpp:tk2em_photons", "firmware/simple_fullpfalgo.cpp:tk2em_sumtk"]}
{"id": "C08", "title": "neutral output is the sorted top-N of the neutral candidates", "statement": "The neutral list is in non-increasing pt order, is made of distinct calo clusters' candidates, and every candidate left out has pt no larger than every listed one; it does not depend on what the output or scratch memory contained before (apart from hwPtPuppi).", "quantifier": "all events with non-negative calo pt, all sizes NCALO >= NSELCALO, all previous memory contents", "why_tests_cant": "sorting network over arbitrary data and sizes; scratch array is uninitialised", "anchors": ["firmware/simple_fullpfalgo.cpp:ptsort_hwopt", "firmware/simple_fullpfalgo.cpp:pfalgo3_full"]}
{"id": "C09", "title": "neutral hadrons never exceed their cluster", "statement": "Every non-null neutral candidate has id Neutral, sits at the position of a calo cluster of the input, and 0 < pt <= that cluster's pt.", "quantifier": "all events with non-negative pts and sums within 16 bits, all sizes", "why_tests_cant": "chain of wrapping 16-bit subtractions", "anchors": ["firmware/simple_fullpfalgo.cpp:em2calo_sub", "firmware/simple_fullpfalgo.cpp:tk2calo_caloalgo", "firmware/simple_fullpfalgo.cpp:ptsort_hwopt"]}
{"id": "C10", "title": "muon candidates are the best matching tracks", "statement": "Muon output slot m is null or an exact copy of a track with id Muon; it is a copy of track t exactly when the muon pt is positive and t has the smallest |pt difference| among tracks within dR^2 < 2101, lowest index on ties, and that difference is below half the muon pt.", "quantifier": "all muons and tracks with non-negative pt, all sizes", "why_tests_cant": "argmin with tie-breaking and sentinel values over arbitrary arrays", "anchors": ["firmware/simple_fullpfalgo.cpp:spfph_mutrk_link", "firmware/simple_fullpfalgo.cpp:spfph_mualgo"]}
{"id": "C11", "title": "empty event in, empty event out", "statement": "If all input pts are zero then all output pts are zero.", "quantifier": "all positions, errors and flags in the zero-pt objects; all sizes", "why_tests_cant": "the zero-pt objects may carry arbitrary other fields", "anchors": ["firmware/simple_fullpfalgo.cpp:pfalgo3_full"]}
{"id": "C12", "title": "all output pts are non-negative on physical inputs", "statement": "If all pts are non-negative and sums fit in 16 bits then no output pt of pfalgo3_full is negative.", "quantifier": "all such events, all sizes", "why_tests_cant": "wrap-around only at particular sums", "anchors": ["firmware/simple_fullpfalgo.cpp:pfalgo3_full"]}
{"id": "C13", "title": "the order in which tracks are listed does not matter", "statement": "With no muon in the event, permuting the input tracks permutes the charged outputs in the same way and leaves photons and neutrals unchanged.", "quantifier": "all events without muons, all permutations, all sizes", "why_tests_cant": "all n! permutations of all events", "anchors": ["firmware/simple_fullpfalgo.cpp:pfalgo3_full"]}
{"id": "C14", "title": "EM subtraction removes a calo cluster exactly when the remainder is negligible", "statement": "After subtracting linked EM clusters, a calo cluster is removed exactly when what remains is at most 1/16 of its pt, or it is flagged EM and the EM remainder is at most 1/8 of its EM pt; otherwise its pt and EM pt are reduced by the subtracted amount (EM pt floored at 0) and its position and flag are kept.", "quantifier": "all links, flags and objects for which the 16-bit sums and differences do not wrap, all sizes", "why_tests_cant": "exact rounding of shifts for every 16-bit value", "anchors": ["firmware/simple_fullpfalgo.cpp:em2calo_sumem", "firmware/simple_fullpfalgo.cpp:em2calo_sub"]}
{"id": "C15", "title": "a calo cluster with a hadron-like EM cluster is protected from the EM removal rule", "statement": "In the reference, a calo cluster to which an EM cluster identified as not-EM is linked is not removed by the EM-remainder rule. The firmware is expected to do the same.", "quantifier": "all events", "why_tests_cant": "needs the exact combination of a linked pion-like EM cluster and the isEM flag; the dump does not trigger it (the firmware violates it: the flag is reset to false)", "anchors": ["firmware/simple_fullpfalgo.cpp:em2calo_sumem", "simple_fullpfalgo_ref.cpp:pfalgo3_em_ref"]}
{"id": "C16", "title": "firmware and reference sorters are the same function", "statement": "ptsort_hwopt and ptsort_ref give the same sorted output for every input array.", "quantifier": "all input arrays, all NIn and NOut, all element types with a pt, negative pts included", "why_tests_cant": "all arrays of all sizes, with ties", "anchors": ["firmware/simple_fullpfalgo.cpp:ptsort_hwopt", "simple_fullpfalgo_ref.cpp:ptsort_ref"]}
{"id": "C17", "title": "MP7 input packing round-trips", "statement": "Unpacking the channel words produced by packing any EM, calo, track and muon arrays gives back exactly the same arrays, whatever was in the channel words before. Idle (all-zero) channel words are read as empty objects in every slot. Whatever words arrive, unpacking gives objects whose packed words are the received ones in the bits that are used (32 and 20, 21 or 31 bits of the two words of an object): no used bit is lost, and the other bits are ignored.", "quantifier": "all objects (every bit pattern of every field), all sizes, all previous channel contents", "why_tests_cant": "2^(hundreds) bit patterns; overlapping channel offsets would show only for some", "anchors": ["firmware/simple_fullpfalgo.cpp:mp7wrapped_pack_in", "firmware/simple_fullpfalgo.cpp:mp7wrapped_unpack_in", "firmware/mp7pf_encoding.h:mp7_pack", "firmware/mp7pf_encoding.h:mp7_unpack"]}
{"id": "C18", "title": "MP7 output packing round-trips", "statement": "Unpacking packed PF outputs gives back the same pt, eta, phi, id (and z0 for charged), leaving hwPtPuppi of the destination untouched. Whatever words arrive, the unpacked objects repack to the received words in the bits that are used (19 and 30 or 20).", "quantifier": "all PF objects, all sizes, all previous contents", "why_tests_cant": "as C17", "anchors": ["firmware/simple_fullpfalgo.cpp:mp7wrapped_pack_out", "firmware/simple_fullpfalgo.cpp:mp7wrapped_unpack_out"]}
{"id": "C19", "title": "the MP7-wrapped algorithm is the plain algorithm", "statement": "Packing the inputs, running mp7wrapped_pfalgo3_full and unpacking the outputs gives the same result as pfalgo3_full.", "quantifier": "all events, all sizes", "why_tests_cant": "composition over all inputs", "anchors": ["firmware/simple_fullpfalgo.cpp:mp7wrapped_pfalgo3_full"]}
{"id": "C20", "title": "packing stays within its channels", "statement": "Packing writes only channels below 2*(number of objects), leaves all others unchanged, and those channels exist: 144 for MP7, 67 in / 48 out for CTP7, for the array sizes the project configures; no channel bit is used twice. The exact number of channels used is 94 in / 84 out for the MP7 build and 38 in / 36 out for the CTP7 build and for the default build. Packing succeeds exactly if the objects fit both the array and the 144 channels the assertion compares with; beyond 144 the assertion stops it; otherwise it writes past the end of the array. In particular the assertion, which compares with MP7_NCHANN in every build, does not guard the smaller CTP7 arrays: the object counts of the MP7 build pass it and are written out of bounds. The same three outcomes, under the same conditions, hold for unpacking.", "quantifier": "all inputs and channel contents; all configurations", "why_tests_cant": "out-of-bounds writes are silent", "anchors": ["firmware/simple_fullpfalgo.cpp:mp7wrapped_pack_in", "firmware/simple_fullpfalgo.cpp:mp7wrapped_pack_out", "firmware/data.h"]}
{"id": "C21", "title": "deltaR^2 is exact inside half the coordinate range", "statement": "dr2_int returns deta^2 + dphi^2 of the true differences whenever both differ by less than half the 10-bit range; in general it is the distance on the 1024-periodic grid, symmetric in its arguments and never negative; dr2_int_cap returns min(dr2, max).", "quantifier": "all coordinates", "why_tests_cant": "2^40 argument combinations", "anchors": ["firmware/simple_fullpfalgo.cpp:dr2_int", "firmware/simple_fullpfalgo.cpp:dr2_int_cap"]}
{"id": "C22", "title": "PUPPI firmware agrees with the PUPPI reference", "statement": "simple_puppi_hw and simple_puppi_ref compute the same hwPtPuppi for every neutral with non-zero pt, as long as the sum over charged candidates fits in an int. The reference is defined exactly then; the firmware exactly when the partial sums of its terms, each wrapped to 32 bits, fit in an int, and its result is then that of the wrapped sum.", "quantifier": "all charged and neutral arrays of any size, all vertex positions, any weight table", "why_tests_cant": "overflow boundary and LUT rounding for every value", "anchors": ["puppi/firmware/simple_puppi.cpp:simple_puppi_hw", "puppi/simple_puppi_ref.cpp:simple_puppi_ref"]}
{"id": "C23", "title": "PUPPI only scales down", "statement": "simple_puppi_hw changes nothing but hwPtPuppi, and for a non-negative pt it sets 0 <= hwPtPuppi <= hwPt.", "quantifier": "all inputs, any 8-bit weight table", "why_tests_cant": "all values", "anchors": ["puppi/firmware/simple_puppi.cpp:simple_puppi_hw"]}
{"id": "C24", "title": "PUPPI is local", "statement": "hwPtPuppi of a neutral depends only on charged candidates within |dz| <= 256 and deltaR^2 <= 8404 of it; with none of those it is 0; with enough of them it is the full pt.", "quantifier": "all inputs", "why_tests_cant": "all configurations", "anchors": ["puppi/firmware/simple_puppi.cpp:simple_puppi_hw"]}
{"id": "C25", "title": "reciprocal lookup is accurate and in range", "statement": "Within the cone the 9-bit index never truncates, and the table product differs from the exact quotient num*2^15/den by less than num.", "quantifier": "all 17-bit numerators and 9-bit denominators", "why_tests_cant": "rounding bound for all values", "anchors": ["puppi/firmware/simple_puppi.cpp:_lut_shift15_divide"]}
{"id": "C26", "title": "histogram vertex finder: firmware agrees with reference", "statement": "Filling the per-sector histograms with bhv_add_track, packing two bins per word and running bhv_find_pv gives the same bin, vertex and pt sum as bhv_find_pv_ref.", "quantifier": "all tracks with non-negative pt, any number of sectors up to the capacity of the sum and any number of tracks", "why_tests_cant": "saturation and tie-breaking for every fill sequence", "anchors": ["vertexing/firmware/bram_hist_vtx.cpp:bhv_add_track", "vertexing/firmware/bram_hist_vtx.cpp:bhv_find_pv", "vertexing/bram_hist_vtx_ref.cpp:bhv_find_pv_ref"]}
{"id": "C27", "title": "histogram bins saturate at the true sum", "statement": "After any sequence of bhv_add_track calls on a cleared histogram each bin holds min(511, sum of the capped half-pts of its valid tracks); hence the order of the tracks does not matter.", "quantifier": "all call sequences of any length with non-negative pt, all bins", "why_tests_cant": "all histories", "anchors": ["vertexing/firmware/bram_hist_vtx.cpp:bhv_add_track"]}
{"id": "C28", "title": "the chosen vertex bin is the first maximum", "statement": "bhv_find_pv returns the lowest-index bin whose total over sectors is maximal and that total (bin 0 and 0 if everything is empty).", "quantifier": "all histograms, all sector counts within capacity", "why_tests_cant": "argmax with ties on arbitrary data", "anchors": ["vertexing/firmware/bram_hist_vtx.cpp:bhv_find_pv"]}
{"id": "C29", "title": "z binning is consistent", "statement": "fetch_bin_ref is valid exactly for -288 <= z0 <= 287, always yields an in-range bin, and bin_center_ref of that bin is within 4 counts of z0 and falls in the same bin.", "quantifier": "all z0, all bins", "why_tests_cant": "boundary exactness", "anchors": ["vertexing/firmware/bram_hist_vtx.h:fetch_bin_ref", "vertexing/firmware/bram_hist_vtx.h:bin_center_ref"]}
{"id": "C30", "title": "simple_vtx_ref stays inside its histogram", "statement": "simple_vtx_ref is expected to use only bins 0..14 for every track z0. It does so exactly when no track has z0 in a wrapped or overflowing range; z0 in [300,319] or [-359,-340] writes one past the end.", "quantifier": "all track arrays", "why_tests_cant": "out-of-bounds write is silent in a test", "anchors": ["vertexing/simple_vtx_ref.cpp:simple_vtx_ref"]}
{"id": "C31", "title": "simple_vtx tree reduction is the sum", "statement": "The log2 pairwise reduction of simple_vtx_hwopt puts in row 0 the sum of all rows, for sums and multiplicities, modulo the register width.", "quantifier": "all per-track histograms, any power-of-two number of tracks", "why_tests_cant": "all data, all sizes", "anchors": ["vertexing/firmware/simple_vtx.cpp:simple_vtx_hwopt"]}
{"id": "C32", "title": "regionizer firmware agrees with the regionizer reference", "statement": "regionize_hadcalo and regionize_hadcalo_ref fill every region identically, for every input stream; the firmware is undefined when a region holds fewer objects than a sector-eta slice (the default NCALO=5 build).", "quantifier": "all streams, all region sizes at least the slice size", "why_tests_cant": "sorting and merging with ties over all data", "anchors": ["regionizer/firmware/regionizer.cpp:regionize_hadcalo", "regionizer/regionizer_ref.cpp:regionize_hadcalo_ref"]}
{"id": "C33", "title": "region content is the sorted best objects of its three sectors", "statement": "Each region list is in non-increasing pt order with null padding at the end, and equals the N highest-pt objects (earlier sector, then earlier arrival on ties) among the slice winners of its three sectors, with eta and phi shifted to region coordinates.", "quantifier": "all streams", "why_tests_cant": "all data", "anchors": ["regionizer/regionizer_ref.cpp:regionize_ref", "regionizer/firmware/regionizer.cpp:merge_smart"]}
{"id": "C34", "title": "regionizer invents nothing and loses nothing below capacity", "statement": "Every non-null regionized object is an input object of one of the region's sectors, inside the region's eta window, shifted; and every positive-pt input object in the window appears if the sector slice and the region have room.", "quantifier": "all streams", "why_tests_cant": "all data", "anchors": ["regionizer/firmware/regionizer.cpp:push_in_sector_eta", "regionizer/firmware/regionizer.cpp:merge_smart"]}
{"id": "C35", "title": "regions cover the detector", "statement": "Every eta with |eta| <= 342 falls in at least one eta slice and every sector belongs to at least one phi region; shifting never overflows the coordinate for in-sector positions.", "quantifier": "all eta, all phi in sector range, all sectors", "why_tests_cant": "complete coverage", "anchors": ["regionizer/firmware/regionizer.h"]}
{"id": "C36", "title": "muon regionizing preserves global position", "statement": "Every muon delivered to a region has the same global phi (modulo 1440) as the input muon it came from and the region-relative eta of that muon, through the 12-to-4 sector merge and the 4-to-6 region split; nothing is invented.", "quantifier": "all muons with in-sector phi, all sectors and regions", "why_tests_cant": "all positions and both stages composed", "anchors": ["regionizer/regionizer_ref.cpp:merge_muon_in", "regionizer/regionizer_ref.cpp:regionize_muon_ref"]}
{"id": "C37", "title": "regionizer consumes exactly its input", "statement": "A regionizer call reads exactly the configured number of objects from every fiber and leaves later data in the stream for the next call; too short a stream is an error.", "quantifier": "all streams", "why_tests_cant": "all lengths", "anchors": ["regionizer/firmware/regionizer.cpp:deserialize_ptsort_eta", "regionizer/regionizer_ref.cpp:regionize_ref"]}
{"id": "C38", "title": "MP7 pattern file contains every event at its documented place", "statement": "With nmux-fold multiplexing, frame k*nmux+t carries at channel m*nchann+c the word c*nmux+t of event k*nmux+m, for every pushed event, as documented in the header.", "quantifier": "all event sequences, all nmux dividing 144", "why_tests_cant": "all histories of calls", "anchors": ["utils/pattern_serializer.cpp:MP7PatternSerializer::push", "utils/pattern_serializer.cpp:MP7PatternSerializer::flush"]}
{"id": "C39", "title": "MP7 pattern frames are numbered consecutively", "statement": "The frame numbers printed, for every stream: frames of complete groups carry 0,1,2,... in order; in the final partial group flushed by the destructor, with m events of the group missing, frame r carries r+1-m modulo 2^32, which continues the numbering exactly when one event is missing (one would expect it always to).", "quantifier": "all event sequences, all nmux", "why_tests_cant": "all histories (false for the destructor flush: numbers are off unless exactly one event is missing)", "anchors": ["utils/pattern_serializer.cpp:MP7PatternSerializer::flush", "utils/pattern_serializer.cpp:MP7PatternSerializer::~MP7PatternSerializer"]}
{"id": "C40", "title": "no multiplexed word is dropped by the printer", "statement": "Two sequences of equally many events give the same file if and only if they agree in every word whose link number (e mod nmux)*144/nmux + w/nmux is below the number of links printed; with all 144 links every word is printed, with the default number only those of the first of the nmux events of a group (one would expect every word to be printed).", "quantifier": "all event sequences", "why_tests_cant": "all histories (false by default for nmux > 1 unless the other events are empty)", "anchors": ["utils/pattern_serializer.cpp:MP7PatternSerializer::print"]}
{"id": "C41", "title": "CTP7 pattern file respects the memory depth", "statement": "The CTP7 file never has more than 1024 rows, rows are numbered 0,1,2,..., and event k (while there is room) is row 6k followed by empty rows.", "quantifier": "all event sequences of any length", "why_tests_cant": "all histories", "anchors": ["utils/pattern_serializer.cpp:CTP7PatternSerializer::operator()", "utils/pattern_serializer.cpp:CTP7PatternSerializer::print"]}
{"id": "C42", "title": "dump files round-trip", "statement": "Reading back what writeToFile wrote gives the same clusters, tracks, muons and regions (transient flags reset), consumes exactly the bytes written, and leaves the rest of the file for the next read.", "quantifier": "all objects, all list lengths below 2^32, any following bytes", "why_tests_cant": "all values and lengths", "anchors": ["DiscretePFInputs.h:writeToFile", "DiscretePFInputs.h:readFromFile", "DiscretePFInputs.h:readManyFromFile"]}
{"id": "C43", "title": "event reader outcome", "statement": "Event::readFromFile returns false at end of file; on any non-empty file it is expected to return true after reading, but it falls off the end of a non-void function (undefined behaviour).", "quantifier": "all files", "why_tests_cant": "the missing return is UB; compilers may make it work", "anchors": ["utils/DiscretePFInputs_IO.h:Event::readFromFile"]}
{"id": "C44", "title": "region iteration visits each barrel region exactly once, in order", "statement": "Successive nextRegion calls deliver exactly the barrel regions (|etaCenter| <= 1.5 as a float) of the file's events in order, converted and padded, and then return false for ever, provided every event has at least one region and a non-zero number (and the missing return yields true).", "quantifier": "all files of events, any number of calls", "why_tests_cant": "all histories", "anchors": ["utils/DiscretePFInputs_IO.h:nextRegion"]}
{"id": "C45", "title": "conversion to firmware objects truncates and pads", "statement": "convert<N> fills the first min(N,size) slots with the converted objects in order and nulls the rest; in-range values are preserved exactly.", "quantifier": "all input vectors, all N", "why_tests_cant": "all sizes and values", "anchors": ["utils/DiscretePF2Firmware.h:convert"]}
{"id": "C46", "title": "conversion back to PF particles", "statement": "Converting PF outputs to particles yields one particle per positive-pt slot in slot order with the right pt, position and id code; with tracks it never indexes beyond the track vector when the output came from a shorter track list.", "quantifier": "all outputs", "why_tests_cant": "all data", "anchors": ["utils/Firmware2DiscretePF.h:convert"]}
{"id": "C47", "title": "the comparison helpers are equivalence relations", "statement": "pf_equals, em_equals, mu_equals and had_equals are reflexive, symmetric and transitive and hold exactly when both are null or all compared fields agree; track_equals ignores hwTightQuality.", "quantifier": "all objects", "why_tests_cant": "all pairs and triples", "anchors": ["utils/test_utils.cpp"]}
{"id": "C48", "title": "more charged energy never lowers a PUPPI weight", "statement": "For a non-decreasing weight table, raising the pt of (or adding) charged candidates from the vertex near a neutral never lowers its hwPtPuppi, as long as the sums fit in an int. Beyond that the firmware's wrap-around breaks it: a concrete pair of events goes from full pt to zero.", "quantifier": "all charged and neutral arrays of any size, all vertex positions, all non-decreasing tables", "why_tests_cant": "relates pairs of events; the wrap needs a 512 GeV track on top of the neutral", "anchors": ["puppi/firmware/simple_puppi.cpp:simple_puppi_hw", "puppi/firmware/simple_puppi.cpp:_lut_shift15_divide"]}
{"id": "C49", "title": "simple_vtx: firmware agrees with reference", "statement": "With bin tables that agree with the reference binning, simple_vtx_hwopt and simple_vtx_ref give the same vertex and pt sum whenever some bin sum is positive; the outputs are identical when every track has positive pt. They differ in multiplicity when empty slots fall in the chosen bin, and with no track the firmware returns stale data.", "quantifier": "all track arrays of 2^P tracks (P <= 6) without a faulting z0, all tables meeting the stated agreement, all previous outputs", "why_tests_cant": "the test bench prints both and compares nothing", "anchors": ["vertexing/firmware/simple_vtx.cpp:simple_vtx_hwopt", "vertexing/simple_vtx_ref.cpp:simple_vtx_ref"]}
{"id": "C50", "title": "simple_vtx quality flag", "statement": "hwId is 1 exactly when the number of tracks in the vertex bin, modulo 32, is between 4 and 15: while every bin has fewer than 16 tracks that is more than three tracks, as intended; with 16 to 31 tracks it is never set, because the 5-bit multiplicity becomes negative.", "quantifier": "all track arrays without a faulting z0", "why_tests_cant": "needs a crowded bin; the flag is never compared", "anchors": ["vertexing/simple_vtx_ref.cpp:simple_vtx_ref"]}
{"id": "C51", "title": "Only relative positions matter", "statement": "Moving every object of an event by a map of the eta-phi torus that keeps squared distances (shift modulo 1024, mirror image, exchange of axes) moves the particles found by the firmware and by the reference and changes nothing else: same fault, or the same pt, id, z0 and slot, at the moved position. PUPPI then gives the same weighted pts.", "quantifier": "all events of any sizes, all distance-keeping maps, all memory contents", "why_tests_cant": "test vectors are a fixed list of events; wrap-around at the edge of a region and mirror images are never compared with each other", "anchors": ["firmware/simple_fullpfalgo.cpp:pfalgo3_full", "simple_fullpfalgo_ref.cpp:pfalgo3_full_ref", "puppi/firmware/simple_puppi.cpp:simple_puppi_hw", "puppi/simple_puppi_ref.cpp:simple_puppi_ref"]}
{"id": "C52", "title": "Distance-only track-calorimeter linking", "statement": "tk2calo_link_dronly links each track to the first nearest cluster with dr2 < 756 and pt above max(0, pt - 2 ptErr), and agrees with best_match_ref<NCALO,DR2MAX,true,HadCaloObj> of the reference on all inputs; it is not equivalent to the default linking.", "quantifier": "all track and cluster arrays of any size", "why_tests_cant": "neither alternative is called by default, so no test executes them", "anchors": ["firmware/simple_fullpfalgo.cpp:tk2calo_link_dronly", "firmware/simple_fullpfalgo.cpp:tk2calo_drvals", "simple_fullpfalgo_ref.cpp:best_match_ref"]}
{"id": "C53", "title": "PF results do not depend on leftover memory", "statement": "Running the PF firmware or the PF reference on the same inputs with any two previous contents of the output arrays and of the uninitialised local arrays ends with the same fault or with the same particles in the same slots; the only exceptions are hwPtPuppi of neutrals and, in the firmware, position and id of empty neutral slots, and these do leak.", "quantifier": "all inputs without restriction, all pairs of memory contents, all array sizes, both implementations", "why_tests_cant": "the test bench reuses the arrays of the previous event; no test can range over all stale contents", "anchors": ["firmware/simple_fullpfalgo.cpp:pfalgo3_full", "firmware/simple_fullpfalgo.cpp:ptsort_hwopt", "simple_fullpfalgo_ref.cpp:pfalgo3_full_ref"]}
{"id": "C54", "title": "the verdict of the PF test bench means what it should", "statement": "On any well-formed dump the PF test bench, plain or wrapped for MP7 or CTP7, exits with 0 exactly when firmware and reference are defined and agree on the first 500 barrel regions, with 1 exactly when some of these regions shows a difference and all before it pass, and has undefined behaviour exactly when a region is undefined for an implementation and all before it pass; physical dumps without the two known differences pass, and a dump with a physical event exists on which it fails.", "quantifier": "all dumps of well-formed events, all array sizes that fit the channels, all contents of uninitialised variables, all builds", "why_tests_cant": "the test bench is itself the test; whether its exit status is sound and complete is a statement about all dumps", "anchors": ["simple_fullpfalgo_test.cpp:main", "utils/test_utils.cpp:pf_equals", "utils/DiscretePFInputs_IO.h:nextRegion"]}
{"id": "C55", "title": "conversions between firmware and discrete objects are inverse", "statement": "Converting a firmware object to a discrete one and back gives the same object, except for the muon pt error (0) and the track quality (that of the destination's stubs and chi2); converting a discrete object and back into itself changes nothing exactly when its coordinates fit 10 bits.", "quantifier": "all objects and all previous contents of the destination", "why_tests_cant": "all field values; the two headers are never used together in the tests", "anchors": ["utils/DiscretePF2Firmware.h:convert", "utils/Firmware2DiscretePF.h:convert"]}
{"id": "C56", "title": "the PUPPI weight table is monotone, in range and accurate", "statement": "Whatever IEEE floating-point implementation computes it (float and double results within half a unit in the last place, log within 4 float units, sqrt and pow within 8 double units), the 1174-entry PUPPI weight table has entries 0..21 equal to 0, all others between 1 and 245 (no wrap in the 8-bit conversion), is non-decreasing, and every entry is the exact weight truncated, up to 0.01 before truncation. Hence the monotonicity of C48 holds for the program's table, and a neutral survives exactly from a sum of 22*1024 on.", "quantifier": "all floating-point implementations with the stated accuracy, all table entries, all events", "why_tests_cant": "a test computes the table with the one compiler and math library at hand and cannot say what another one would produce", "anchors": ["puppi/firmware/simple_puppi.h:lut_puppiweight_init", "puppi/firmware/simple_puppi.h:weight_function_float", "puppi/firmware/simple_puppi.h:erf_approx"]}
{"id": "C57", "title": "the PF+PUPPI test bench reads beyond its track array; where it completes its two columns agree", "statement": "simple_pfpuppi_test passes its NTRACK tracks to simple_vtx_ref, which reads NALLTRACK = 64 of them: with the sizes of the repository (NTRACK 7 or 15) the read is out of bounds for every event, so the bench has undefined behaviour on every dump with a barrel region, and prints nothing on a dump without one. For any sizes for which it completes, it prints at most 50 tests, the PUPPI pt of firmware and reference are equal in every printed line, and they are between 0 and the (non-negative) pt.", "quantifier": "all array sizes, dump files, weight tables, leftover memory contents", "why_tests_cant": "an out-of-bounds read of neighbouring stack memory usually gives no visible failure, and the bench prints without comparing", "anchors": ["puppi/simple_pfpuppi_test.cpp:main", "vertexing/simple_vtx_ref.cpp:simple_vtx_ref", "firmware/data.h:NALLTRACK"]}
{"id": "C58", "title": "the verdict of the regionizer test bench", "statement": "On a dump of well-formed events, with regions of at least one sector's share per eta slice and an even number of tracks per sector, regionizer_test exits with 0 if its first fifty events all have twelve sectors and no negative cluster pt among the clusters taken, and then writes for each the best objects of the sectors for every region; otherwise the first event that is not so decides: exit 2 for a wrong number of sectors, a failed assertion for a negative pt. It never reports a mismatch. With smaller regions (the default build) the first good event is out of bounds, and with an odd number of tracks per sector the second good event ends it with 3.", "quantifier": "all dumps of any number of events, all array sizes, leftover memory and input contents", "why_tests_cant": "a run of the bench shows its verdict on one file; which files pass, and that sizes outside its assumptions break it, needs all of them", "anchors": ["regionizer/regionizer_test.cpp:main", "regionizer/regionizer_test.cpp:fill_stream"]}
{"id": "C59", "title": "what is in the files of the regionizer test bench", "statement": "For any number of tests, the input pattern file has 36 numbered rows per test and carries, in rows 36t+2ic and the next, link by link, the ic-th object of each sector of test t (clusters on links 0-11, em clusters 12-23, tracks on two links per sector 24-47, muons 48-51), the output file all objects of region ic; the development files carry the same links moved to the front, and the no-mux files every frame twice. An odd number of tracks per sector is an out-of-bounds write. The text input file has 247 numbers per line in a fixed column layout; only the first half of the tracks of each sector is ever printed in it, so tests that differ in the other half print the same file; the text output file prints each region twice.", "quantifier": "all lists of tests (fewer than 2^32/36), all array sizes with at most 72 objects per region, all leftover memory contents, all clocks and links", "why_tests_cant": "the files are written for a person or board to read and nothing in the repository reads them back; a file of one event does not show which objects can never appear", "anchors": ["regionizer/regionizer_test.cpp:main", "regionizer/regionizer_test.cpp:dump_o", "utils/pattern_serializer.cpp:MP7PatternSerializer::operator()", "firmware/mp7pf_encoding.h:mp7_pack"]}
{"id": "C60", "title": "what the vertex test bench computes, counts and writes", "statement": "On every dump whose first 250 events have twelve sectors the vertex test bench exits with 0; for each event it splits the tracks of every sector alternately over two, computes the reference vertex of the tracks of positive pt, the firmware vertex, and writes the text lines and the frames of its four pattern files with a fixed layout, and its counters are the numbers of tests with the compared positions within 10 counts, resp. with a disagreement. The first event without twelve sectors ends it with 2. Without tracks of negative pt firmware and reference agree in every test and the error count is 0; with one they can disagree, and the exit code is still 0.", "quantifier": "all dumps of well-formed events, all leftover contents of the local arrays, all conversions of the stored vertex positions to counts; all clocks, links and words of the files", "why_tests_cant": "the bench is the test: nothing tests that its verdict follows from its inputs, and its exit code does not depend on its error count", "anchors": ["vertexing/bram_hist_vtx_test.cpp:main", "vertexing/firmware/bram_hist_vtx.cpp:bhv_find_pv", "vertexing/bram_hist_vtx_ref.cpp:bhv_find_pv_ref", "utils/pattern_serializer.cpp:MP7PatternSerializer::operator()"]}
{"id": "C61", "title": "the discretisation of the floating-point inputs", "statement": "For every IEEE rounding to nearest: filling pt gives the nearest quarter of a GeV (halves away from zero) and is defined exactly between -8192.125 and 8191.875; eta and phi are given in quarters of a degree to half a unit and 21 binary digits, phi up to whole turns; filling a track is defined from 0.306 GeV on and undefined below 0.305 GeV; what was read from an object and filled again is the same object (pt, eta, phi, z0, weights always, vertex angles up to 22 bits, inverse pt when not zero). Within 2.2 of the centre eta and phi survive the ten bits of the firmware, and from 2.24 to pi phi arrives on the other side. The dump reader truncates the position of the vertex where the vertex bench rounds it: they are equal or differ by one.", "quantifier": "all roundings to nearest (any rule for ties), all real or representable arguments in the stated ranges, all objects and previous contents", "why_tests_cant": "there are 2^32 floats per argument, and the code that calls these functions is outside the repository; nothing here tests them", "anchors": ["DiscretePFInputs.h:CaloCluster::fill", "DiscretePFInputs.h:InputTrack::fillInput", "DiscretePFInputs.h:PropagatedTrack::fillPropagated", "DiscretePFInputs.h:Muon::fill", "DiscretePFInputs.h:PFParticle::setPuppiW", "utils/DiscretePFInputs_IO.h:nextRegion", "vertexing/bram_hist_vtx_test.cpp:main"]}
{"id": "C62", "title": "the generated events of the simple vertex bench", "statement": "Whatever rand() returns and whatever the array held before, an event of simple_vtx_test is made without leaving the array: pile-up tracks, then tracks of the vertex, together at most NALLTRACK-2, then empty slots; every pt, pt error, eta, phi and z0 is in the range the generator aims at, so nothing wraps. Unless rand() returns RAND_MAX, all tracks of the vertex have one and the same z0, within 0.051 of zPV-0.35 (the spread is drawn with a division of ints). With tables for the two functions the firmware calls but does not define, the program runs to its end with one line per test, in which firmware and reference report the same position: the centre of a bin of largest summed pt.", "quantifier": "all sequences of draws and RAND_MAX up to 2^31-1, all roundings to nearest, all leftover contents of the array and of the output, all numbers of tests, all numbers of vertex tracks and array sizes in the stated ranges", "why_tests_cant": "the bench runs 50 events of one seed and checks nothing: it prints the positions and returns 0", "anchors": ["vertexing/simple_vtx_test.cpp:main", "vertexing/firmware/simple_vtx.cpp:simple_vtx_hwopt", "vertexing/simple_vtx_ref.cpp:simple_vtx_ref", "firmware/data.h:NALLTRACK"]}
{"id": "C63", "title": "random regions", "statement": "RandomPFInputs::nextRegion ends without a fault exactly when there is room for a track and for two clusters (otherwise rand() is taken modulo 0). Two calls from the same draw on different arrays make the same vertex, muons and tracks except for the quality bit, and every cluster which is not one of the neutral ones differs afterwards by exactly what it differed before: the caller has to clear the clusters. If their pts are between 0 and B before, with B at least 324 and B+300*NTRACK below 2^15, nothing wraps: at least half and not all tracks are drawn, all fields in the ranges of the generator, the tracks with an even number within 8 counts of the vertex, no cluster pt negative or above B plus 300 per track, eta and phi within 275 counts.", "quantifier": "all sequences of draws and RAND_MAX up to 2^31-1, all roundings to nearest (the first two parts: any rounding), all array sizes, all previous contents of the arrays", "why_tests_cant": "no program of the repository calls it (the uses are commented out), and each call shows one sequence of draws", "anchors": ["utils/random_inputs.h:RandomPFInputs::nextRegion", "firmware/data.h:CaloObj"]}
{"id": "C64", "title": "text of the pattern files", "statement": "The text of an MP7 pattern file, header lines skipped, reads back as exactly the rows the serializer produced (frame numbers and all words), for every board name that is one line; so files with the same text have the same rows. The same for CTP7 files. The header of an MP7 file names the board; that of a CTP7 file, between two rulers of 120 characters, names the direction and the links 0 to n-1 in order. In rows with frame number below 10000 word i fills the eleven columns from 12+11i on, and its quad label stands above it (up to 400 links); its link label stands above it exactly for links up to 105, because labels from 100 on have three digits: in files of 144 links the labels of links 106 to 143 stand above later words. CTP7 rows of n words have width 7+11n.", "quantifier": "all event lists, numbers of links, multiplexing factors, fillers, board names without newline", "why_tests_cant": "nothing reads the files back in this repository; the label drift appears only in files with more than 100 links", "anchors": ["utils/pattern_serializer.cpp:MP7PatternSerializer::MP7PatternSerializer", "utils/pattern_serializer.cpp:MP7PatternSerializer::print", "utils/pattern_serializer.cpp:CTP7PatternSerializer::print"]}
{"id": "C65", "title": "text of the other files", "statement": "The integers in the human readable pattern file are, for each event, its number and for each input and output object its index and its members in order (all but the muons' z0 and the PUPPI pt), whatever their values; a line of the regionizer dumps reads back as exactly the numbers of C59, is one line and contains no plus sign, as the comment in the source demands for the VHDL reader; the lines of the vertex dumps and of the PF+PUPPI bench read back as the numbers given to printf.", "quantifier": "all objects, array sizes, frame and test numbers", "why_tests_cant": "the widths in the formats are smaller than the largest values of the fields (%4d for a 16-bit pt): a test sees only the values it produces", "anchors": ["utils/pattern_serializer.cpp:HumanReadablePatternSerializer", "regionizer/regionizer_test.cpp:dump_o", "vertexing/bram_hist_vtx_test.cpp:main", "puppi/simple_pfpuppi_test.cpp:main"]}
{"id": "C66", "title": "where the energy goes in particle flow", "statement": "On valid inputs: photon and linked track pt of an EM cluster together do not exceed the larger of cluster pt and track pt; neutral hadrons plus hadron tracks do not exceed, summed over calorimeter clusters, the larger of what is left of the cluster and its track pt; photons and neutral hadrons together do not exceed the calorimeter clusters (or the EM energy inside them, where larger) plus the EM clusters belonging to none, so calorimeter energy is not counted twice. Conversely nothing significant is lost: the pt of an EM cluster beyond its tracks and its photon is non-positive or inside the significance cut (2 d^2 <= 3 err^2), and likewise in sum for calorimeter clusters when the neutral list has room for all. Both hold of the firmware and of the reference.", "quantifier": "all valid inputs, all array sizes, all previous memory contents", "why_tests_cant": "the test bench compares with the reference only; both could double-count in the same way", "anchors": ["firmware/simple_fullpfalgo.cpp:pfalgo3_full", "firmware/simple_fullpfalgo.cpp:tk2em_emalgo", "firmware/simple_fullpfalgo.cpp:em2calo_sub", "firmware/simple_fullpfalgo.cpp:tk2calo_caloalgo", "simple_fullpfalgo_ref.cpp:pfalgo3_full_ref"]}
{"id": "C67", "title": "files written by the PF test bench", "statement": "In the wrapped builds, on every well-formed dump, every event handed to the serializers is a correct test vector (input words unpack to the inputs of the region, output words to the outputs, outputs are those of the algorithm on these inputs), for the first barrel regions in order, all of them (at most 500) when the exit status is 0; with validation on, firmware and reference agree on all events written, except on the last one when the exit status is 1; the run is the one of C54. From each of the six MP7 files every word of every event can be read back, rows numbered from 0, 'II' rows per event; the CTP7 files hold the first 171 events and nothing of the others; the human readable file lists number, inputs and outputs of every event.", "quantifier": "all dumps of events that fit, all region contents, all array sizes that fit the channels, all initiation intervals that divide 144, all leftover memory", "why_tests_cant": "The bench writes the vectors it is later judged by; the files are only compared on boards, and a lost or shifted word appears only for particular initiation intervals or numbers of events.", "anchors": ["simple_fullpfalgo_test.cpp:main", "utils/pattern_serializer.cpp:MP7PatternSerializer", "utils/pattern_serializer.cpp:CTP7PatternSerializer", "utils/pattern_serializer.cpp:HumanReadablePatternSerializer"]}
{"id": "C68", "title": "particle flow is local, and array sizes do not matter", "statement": "If a part of an event is on its own (nothing outside is within the four distance cuts of anything inside, empty slots apart), PF makes of it what it makes of the part alone: same charged, photon and muon slots, same neutral candidates; with enough slots the neutrals of the part are all among those of the event. In particular adding empty slots to all arrays changes nothing for the firmware, unless an empty EM slot at the origin takes the track of a nearby electron.", "quantifier": "all events on which the arithmetic is exact, all array sizes of event and part, all ways of placing the part in the event, all leftover memory", "why_tests_cant": "The board builds use smaller arrays than the simulation; no finite set of events shows that a far-away object or a longer array never changes a link.", "anchors": ["firmware/simple_fullpfalgo.cpp:pfalgo3_full", "simple_fullpfalgo_ref.cpp:pfalgo3_full_ref", "firmware/data.h:NTRACK"]}
{"id": "C69", "title": "order of the PF inputs", "statement": "Listing tracks, clusters and muons in other orders lists charged particles, photons and muons in the same other orders as long as no link is a tie decided by the order; the pts of the selected neutrals are the same, and the whole list when no two neutral candidates have the same pt.", "quantifier": "all events on which the arithmetic is exact, all permutations of all four input arrays that keep the order of tied candidates, all sizes", "why_tests_cant": "number of permutations and events; ties depend on exact integer distances", "anchors": ["firmware/simple_fullpfalgo.cpp:pfalgo3_full", "firmware/simple_fullpfalgo.cpp:pick_closest"]}
{"id": "C70", "title": "what the PF test bench prints", "statement": "The standard output of simple_fullpfalgo_test.cpp, line by line: the events and barrel regions read, for every test the slots where reference and firmware differ with both values of every field and then the verdict (with counts of objects, or the number of errors and a dump of all inputs and outputs), the counters of the CTP7 serializers, and at the end the files with their numbers of rows. With validation on, a line 'Error' occurs exactly if the exit status is 1 and names a region on which the two differ; a line 'Passed' names one on which they agree. The run is that of C54. Directions and vertices are printed with their sign, other values with a sign only if negative, all in at least seven characters.", "quantifier": "all well-formed dumps with any number of events and regions, all array sizes that fit the channels, all three builds, all contents of uninitialised memory", "why_tests_cant": "the output on failures is never seen when the tests pass; the number of dumps and memory contents is unbounded", "anchors": ["simple_fullpfalgo_test.cpp:main", "utils/test_utils.cpp:pf_equals,had_equals,em_equals,track_equals,mu_equals", "utils/DiscretePFInputs_IO.h:nextRegion", "utils/pattern_serializer.cpp"]}
{"id": "C71", "title": "from the detector through the regions to particle flow", "statement": "Distances computed inside a region are distances on the detector cylinder. The 18 regions divide the detector into areas of responsibility that cover it, and everything within 57 units of an object in the area is delivered to the region, which is more than the largest link radius. Hence for objects in the area: the muon candidate is the best-matching track of the whole detector and null exactly if the detector has none (and every muon gets this in some region); an EM cluster is linked to the nearest calorimeter cluster of the whole detector that can contain it; a track linked to a cluster is linked to the nearest EM cluster of the detector, the only other link being to an empty slot when the track is at the centre of the region. A track is linked to the best calorimeter cluster of the whole detector in which it can end. In the overlap outside the area this fails: a muon can lose its track. The eta fiducial size declared in the header (171, unused) does not describe such areas: areas of that size miss part of the detector and a muon inside one can lose its track. In eta the areas of the declared size are disjoint and cover exactly the etas up to 256 of 342 units.", "quantifier": "all detector contents (any number of objects and fibres per sector) with phi inside the sector, all regions that are not overfull, all array sizes, all leftover memory", "why_tests_cant": "the bench compares the firmware with a reference that splits the detector in the same way; neither looks at the undivided detector, and the failures would sit at the borders of regions and sectors", "anchors": ["regionizer/regionizer_ref.cpp:regionize_track_ref,regionize_hadcalo_ref,regionize_emcalo_ref,regionize_muon_ref", "firmware/simple_fullpfalgo.cpp:pfalgo3_full,tk2em_link,em2calo_link", "firmware/simple_fullpfalgo.h:PFALGO3_DR2MAX_TK_MU", "regionizer/firmware/regionizer.h:ETA_FID_SIZE,PHI_FID_SIZE"]}
{"id": "C72", "title": "what the regionizer test bench prints", "statement": "The standard output of regionizer_test, read as lines of words and numbers, consists of the configuration (the sizes in use), \"Passed test i\" for each test in order, and then the reason of the exit: nothing with status 0; the number of sectors, which is not 12, with status 2; the name of the stream that still holds objects with status 3; with status 1 the report on the failing test: for each region and class of objects exactly the first slot that differs, numbered 100*region+slot, with all fields of both objects, then the number of those lines and all the calorimeter clusters of sectors and regions. In the MP7 build the ten pattern files follow, with 36 rows per recorded test. Printing does not change status, records or faults.", "quantifier": "all input files, all contents of uninitialised memory, all array sizes (MP7 build: sizes that fit the links), and for the report all pairs of results", "why_tests_cant": "the bench is itself the test: what it reports on a mismatch is only seen when the firmware is wrong, and by C58 it never is on a well-formed dump", "anchors": ["regionizer/regionizer_test.cpp:main", "regionizer/regionizer_test.cpp:fill_stream", "utils/test_utils.cpp:had_equals", "utils/pattern_serializer.cpp:HumanReadablePatternSerializer::dump_hadcalo", "utils/pattern_serializer.cpp:MP7PatternSerializer::~MP7PatternSerializer"]}
{"id": "C73", "title": "what the vertex test bench prints", "statement": "The standard output of bram_hist_vtx_test, read as lines of words and numbers, consists of one line per test with the generated, CMSSW, reference and firmware vertices, then with status 0 the summary and with status 2 the number of sectors, which is not 12, and then the four pattern files with 36 rows per test. The counts in the summary are those of the tests; each fraction a/b, computed in single precision, is printed as the exact a/b rounded to three decimals (so 1.000 means all tests, 0.000 none), each resolution, computed in double precision with a square root, as the exact one rounded to three decimals (at most 5.000), and NaN exactly when there is nothing to average. On events without tracks of negative pt every line says MATCH 0.", "quantifier": "all input files, all contents of uninitialised memory, all roundings to nearest of the floating-point types and of printf", "why_tests_cant": "the summary is floating point: that no count up to 250 is printed wrongly after two roundings takes a proof or all pairs; the exits on malformed dumps are never run", "anchors": ["vertexing/bram_hist_vtx_test.cpp:main", "utils/pattern_serializer.cpp:MP7PatternSerializer::~MP7PatternSerializer"]}
{"id": "C74", "title": "what the PF+PUPPI test bench prints, and when it works", "statement": "The standard output of simple_pfpuppi_test, read as lines of words and numbers, consists of the events and barrel regions as they are read and, for each of the first 50 barrel regions, 'test i', one line per photon and neutral of the reference PF (the empty ones too) with its pt and twice the PUPPI pt that the charged candidates of the reference PF and the vertex of the reference vertexing give it, and 'end of test ---- i'. Printing changes nothing. Where the track array is at least NALLTRACK long (it is not in the repository, C57), the bench completes on every dump whose regions are physical, with z0 inside the vertexing histogram and squared track pts summing to less than 2^21; the last bound is what keeps PUPPI from overflowing and is sharp.", "quantifier": "all dumps, all array sizes, all tables of weights, all contents of uninitialised memory", "why_tests_cant": "with the array sizes of the repository the program is undefined on every dump with a barrel region, so no run says anything", "anchors": ["puppi/simple_pfpuppi_test.cpp:main", "utils/DiscretePFInputs_IO.h:DiscretePFInputs::nextRegion", "puppi/simple_puppi_ref.cpp:simple_puppi_ref"]}
{"id": "C75", "title": "code that nothing calls", "statement": "The operator< of the discrete objects is a strict weak order in which equivalent means equal pt, and if the lists of a region are sorted by it (with no negative pt) the input arrays of PF hold the best objects of the region sorted by pt, with zeros at the end: what does not fit is no better than what does. deserialize_ptsort (under #if 0) takes exactly N objects from the stream and leaves in the array those of positive pt, sorted and stable as the reference sorts them, and blocks on a shorter stream. link_ref on the calorimeter array of the build gives exactly the distance-only links of the firmware; because it passes NCALO instead of its own NCAL to the search, on an array of another size it reads out of bounds (smaller) or ignores what is beyond NCALO (larger), which happens in none of the builds. dummy() of the block-memory vertexing is true exactly for positive positions.", "quantifier": "all region contents, streams, array sizes, clusters and tracks", "why_tests_cant": "nothing in the repository runs this code; sizes other than those of the builds are never compiled", "anchors": ["DiscretePFInputs.h:operator<", "regionizer/firmware/regionizer.cpp:deserialize_ptsort", "simple_fullpfalgo_ref.cpp:link_ref", "simple_fullpfalgo_ref.cpp:best_match_ref"]}
{"id": "C76", "title": "what the simple vertex test bench prints", "statement": "The standard output of simple_vtx_test, read as lines of words and numbers, consists of one line per test with the firmware and the reference position as integers (in agreement, and equal to the centre of the bin with the highest sum, C62) and the position that was drawn, times 20, as one of the closest numbers with six significant digits (written with an exponent exactly when it is positive and below 1e-4, or at least 1e6), so within one part in 200000.", "quantifier": "every sequence of values of rand(), every leftover memory, every number of tests and every array size up to 64, every rounding to nearest of the floating-point types and of std::cout", "why_tests_cant": "the output is never checked by anything; the scientific notation needs draws of probability below 1e-8", "anchors": ["vertexing/simple_vtx_test.cpp:main"]}
{"id": "C77", "title": "what the reference PF says when debugging", "statement": "With g_debug_ on, pfalgo3_full_ref gives the same particles and the same faults as with it off. On valid inputs its messages, read as lines of words and numbers, are exactly the decisions of the specification in the order of the stages: which track each muon is linked to, which EM cluster each track is matched to, the sum of the tracks of each EM cluster and whether it is a photon, an electron, an electron with a photon or a pion, with the match window within a hundredth, which tracks are electrons, which EM cluster is subtracted from which calorimeter cluster and what is left, which cluster each remaining track is matched to, the sums, and the neutral pt. No message depends on uninitialised memory or on the outputs as they were.", "quantifier": "all valid inputs, all array sizes, all memory contents, every rounding to nearest of the floating-point types and of printf", "why_tests_cant": "nobody calls pfalgo3_full_ref_set_debug, and nothing reads the text", "anchors": ["simple_fullpfalgo_ref.cpp:pfalgo3_full_ref_set_debug", "simple_fullpfalgo_ref.cpp:pfalgo3_em_ref", "simple_fullpfalgo_ref.cpp:pfalgo3_full_ref"]}
{"id": "C78", "title": "PUPPI in regions and PUPPI in the whole detector", "statement": "PUPPI sums over charged particles in a cone of radius 0.4 (91.7 units), wider than the overlap of the regions (57 units in eta, 60 in phi beyond the areas of responsibility). The sum a region computes is never more than the sum over all tracks of the detector. It is equal for neutrals in the centre of a region whose tracks are all kept; in particular, run through regionizer, particle flow and PUPPI, a photon there gets the PUPPI pt of the undivided detector when the tracks are below 10 GeV. The directions whose whole cone is inside a region are exactly those at least 91 units from the edges shared with another region; at eta 100 no region has the whole cone, whatever the phi. There a photon that keeps all its pt in the detector loses some in every region that contains it, for any table of weights.", "quantifier": "all detector contents (any number of tracks and fibres per sector) of objects inside their sectors, all regions that are not overfull, all neutrals, vertex positions, weight tables, array sizes and leftover memory; all directions", "why_tests_cant": "PUPPI is tested region by region against a reference that sees the same region; no test has the undivided detector to compare with", "anchors": ["regionizer/regionizer_ref.cpp:regionize_track_ref,regionize_emcalo_ref", "regionizer/firmware/regionizer.h:ETA_MIN,ETA_MAX", "puppi/firmware/simple_puppi.cpp:simple_puppi_hw", "firmware/simple_fullpfalgo.cpp:pfalgo3_full"]}
{"id": "C79", "title": "the regionizer's output links and the particle-flow input links", "statement": "A region sent with the link map of the regionizer bench (calorimeter clusters, EM clusters, tracks, muons) and read with the link map of the particle-flow firmware (EM clusters, calorimeter clusters, tracks, muons) gives the right tracks and muons, but calorimeter clusters in the EM slots (EM pt taken for a pt error, EM flag lost) and EM clusters in the calorimeter slots. With the equal numbers of clusters of data.h the two collections are exchanged, and the region is read right exactly when each calorimeter cluster is the image of the EM cluster of the same number. Exchanging the two blocks of links gives exactly the region.", "quantifier": "all regions, all contents of the arrays, all array sizes that fit 72 links", "why_tests_cant": "No test connects the two; each bench packs and unpacks with its own map.", "anchors": ["regionizer/regionizer_test.cpp:247-250", "firmware/simple_fullpfalgo.cpp:mp7wrapped_unpack_in"]}
{"id": "C80", "title": "an electron that balances its cluster exactly", "statement": "A track is identified as an electron exactly when the pt of its EM cluster differs from the pt of all the tracks of that cluster and falls short of it by less than two errors; at exact balance there is no electron and no photon, and a track above its pt threshold without a calorimeter cluster disappears from the output. Firmware and reference do the same.", "quantifier": "all valid events, array sizes and previous memory contents", "why_tests_cant": "Firmware and reference share the two strict inequalities, so comparing them never shows the hole.", "anchors": ["firmware/simple_fullpfalgo.cpp:tk2em_emalgo", "simple_fullpfalgo_ref.cpp:118"]}
{"id": "C81", "title": "parallel hardware computes the result of the sequential loops", "statement": "Read as clocked hardware (arrays in registers, all iterations unrolled, every cell reading its neighbours' contents from before the clock edge), the sorting network of the MP7 sort, the push of the regionizer streams, the merge of three sectors and the reduction of the simple vertex finder give the result of the sequential C++ loops; the sorter and the push do so because their loops run downwards: upwards a cell would copy the new content of its neighbour. The sums over linked tracks and clusters are the same for any tree of adders of the register width.", "quantifier": "all array sizes, contents, orders of arrival, and every tree of two-input adders using each input once", "why_tests_cant": "C simulation runs the loops one iteration after the other; the hardware does not, and only co-simulation would compare the two, on samples.", "anchors": ["firmware/simple_fullpfalgo.cpp:ptsort_hwopt", "regionizer/firmware/regionizer.cpp:push_in_sector_eta", "regionizer/firmware/regionizer.cpp:merge_smart", "vertexing/firmware/simple_vtx.cpp:67-99", "firmware/simple_fullpfalgo.cpp:tk2em_sumtk", "firmware/simple_fullpfalgo.cpp:em2calo_sumem"]}
{"id": "C82", "title": "the pipelined histogram memory", "statement": "With a new call every two cycles (the pragma) and the write one cycle after the read, the pipelined histogram is that of the program for any sequence of tracks. One port suffices exactly for odd latencies and never with a call in each cycle. With a latency of two or more, the second of two successive tracks of one bin erases the first; with latency 2q+1 the result is still right if any q+1 successive tracks are in different bins.", "quantifier": "all sequences of tracks, all histogram contents, all write latencies", "why_tests_cant": "The hazard depends on the schedule, which C simulation does not execute.", "anchors": ["vertexing/firmware/bram_hist_vtx.cpp:bhv_add_track"]}
{"id": "C83", "title": "PUPPI with the vertex of the histogram vertex finder", "statement": "With the vertex found by the histogram vertex finder, every track that filled the chosen bin, and every track within 12.6 cm of one, passes the vertex cut of PUPPI; tracks of the histogram pass up to 31 bins from the vertex, fail from 33 bins, and at 32 bins pass in the nearer half of the bin. If no track votes, the vertex is the lowest bin (-14.2 cm) and PUPPI accepts exactly the tracks below -1.4 cm.", "quantifier": "all track collections with non-negative pt, all charged candidates and neutrals", "why_tests_cant": "The vertex finder and PUPPI are never run together in the repository.", "anchors": ["vertexing/firmware/bram_hist_vtx.h:bin_center_ref", "vertexing/firmware/bram_hist_vtx.cpp:bhv_find_pv", "puppi/firmware/simple_puppi.cpp:70"]}
{"id": "C84", "title": "stability of the vertex", "statement": "Raising the pt of one track leaves the vertex in place or moves it to the bin of that track, and never moves it away from that bin. Moving all tracks by whole bins within the histogram moves the vertex by as many bins; reflecting all tracks reflects the vertex if no other bin is as full as its own, and not in general when there is a tie.", "quantifier": "all track collections with non-negative pt, all numbers of sectors up to the capacity of the sum, all tracks per sector", "why_tests_cant": "Relates pairs of events; the bench only compares firmware and reference on the same event.", "anchors": ["vertexing/firmware/bram_hist_vtx.cpp:bhv_find_pv", "vertexing/firmware/bram_hist_vtx.cpp:bhv_add_track", "vertexing/bram_hist_vtx_ref.cpp:bhv_find_pv_ref"]}
{"id": "C85", "title": "the whole chain, firmware against reference", "statement": "For an event whose detector inputs are sensible (pts and errors in range, total track pt and EM pt below 2^15, squared track pts that keep the PUPPI sums in an int), the chain regionizer - vertex finder - packed particle flow - PUPPI in firmware and the chain of reference functions both run without a fault, and in each of the eighteen regions they agree on every charged candidate, muon, neutral and PUPPI pt if and only if the two sets of particle flow rules keep the same tracks of that region and give the same list of selected neutrals. In particular they agree everywhere when no calorimeter cluster is flagged EM and no pt error is exactly one unit, and there is a sensible event on which they disagree.", "quantifier": "all streams of complete events, all sizes of sectors, slices, regions and word buffers that fit, all weight tables, all previous contents of all memories", "why_tests_cant": "No bench runs the stages in sequence; each has its own inputs, and the conditions under which the stages agree are about regions, not about what the detector sends.", "anchors": ["regionizer/firmware/regionizer.cpp:regionize_hadcalo", "regionizer/regionizer_ref.cpp:regionize_hadcalo_ref", "vertexing/firmware/bram_hist_vtx.cpp:bhv_find_pv", "firmware/simple_fullpfalgo.cpp:mp7wrapped_pfalgo3_full", "simple_fullpfalgo_ref.cpp:pfalgo3_full_ref", "puppi/firmware/simple_puppi.cpp:simple_puppi_hw", "puppi/simple_puppi_ref.cpp:simple_puppi_ref"]}
{"id": "C86", "title": "turning and reflecting the detector", "statement": "Turning the detector by a multiple of 60 degrees turns the regions of EM clusters, calorimeter clusters and tracks; half a turn also turns the muons, so that each board gets exactly the inputs of the opposite board; a sixth of a turn does not, because of muons on sector borders. Reflecting the detector in eta reflects every region, object by object, muons included, and with the same vertex every board gives the reflected candidates with the same PUPPI pts.", "quantifier": "all streams, all numbers of fibres, all sizes of sectors, slices and regions, all previous contents of memories", "why_tests_cant": "Relates pairs of runs on different events.", "anchors": ["regionizer/regionizer_ref.cpp:regionize_hadcalo_ref", "regionizer/regionizer_ref.cpp:regionize_muon_ref", "regionizer/firmware/regionizer.cpp:regionize_hadcalo", "regionizer/firmware/regionizer.h:IN_SECTOR_OF_REGION"]}
{"id": "C87", "title": "the order of the PUPPI inputs", "statement": "The PUPPI reference does not depend on the order of the charged candidates: in another order it is defined exactly if it was, with the same result for each neutral. The firmware gives the same result for each neutral if it is defined for both orders, but it may overflow for one order of the same candidates and not for another.", "quantifier": "all charged and neutral candidates, all vertices and weight tables, all permutations of both lists", "why_tests_cant": "Relates two runs; the overflow needs tracks above 360 GeV at the position of the neutral.", "anchors": ["puppi/firmware/simple_puppi.cpp:simple_puppi_hw", "puppi/simple_puppi_ref.cpp:simple_puppi_ref"]}
{"id": "C88", "title": "how far integer PUPPI is from PUPPI in real numbers", "statement": "Against the same sum of 2^15 pt^2/dR^2 in real numbers (distances below sqrt(32) counted as sqrt(32)), the integer sum of the firmware is at most twice as large, at most 1+1/k times as large when no charged candidate of the cone is closer than sqrt(32k), and at least 0.992 times the real sum with 32 units taken off every pt^2 (and pt^2 cut at 2^22). Hence, with the table of the program on any accurate floating-point implementation, the PUPPI pt lies between pt times the real weight of the lower sum less one table step (minus 1.01/256 of the pt and one unit) and pt times the real weight of the upper sum (plus 1/25600 of the pt). The factor of two is nearly reached at a distance of sqrt(61), where a neutral gets full pt although its real weight is below 0.96.", "quantifier": "all charged and neutral candidates and vertices for which the sum fits in an int, all accurate floating-point implementations", "why_tests_cant": "Compares integer arithmetic, tables and floating-point with the exact real function; the test bench only compares two integer implementations that share the same truncations.", "anchors": ["puppi/firmware/simple_puppi.cpp:simple_puppi_hw", "puppi/firmware/simple_puppi.cpp:_lut_shift15_divide", "puppi/firmware/simple_puppi.h:weight_function_float"]}
{"id": "C89", "title": "order of arrival on the links", "statement": "Sending the objects of a sector in another order, or sharing them differently among the fibres of the sector, leaves every region of the regionizer unchanged unless two different objects of the sector in the same eta slice have the same positive pt; with such a tie the pts of every region are still the same, but a concrete pair shows that the objects may differ. The same holds for the muons of a muon sector. The vertex found by the histogram does not depend on the order of the tracks of a sector, ties or not. So without ties the whole chain, firmware and reference, gives the same candidates.", "quantifier": "all streams of complete events, all permutations within sectors, all numbers of fibres per sector, all sizes, all memories", "why_tests_cant": "The bench sends every event in one order; the number of orders grows with the factorial of the number of objects, and a dependence on order shows only in events with ties at the boundary of a list.", "anchors": ["regionizer/firmware/regionizer.cpp:regionize_hadcalo", "regionizer/regionizer_ref.cpp:regionize_ref", "regionizer/regionizer_ref.cpp:regionize_muon_ref", "vertexing/firmware/bram_hist_vtx.cpp:bhv_add_track", "vertexing/bram_hist_vtx_ref.cpp:bhv_find_pv_ref"]}
{"id": "C90", "title": "how far a candidate looks", "statement": "Two events that hold the same object in a slot and agree around it (every other slot holds the same object in both, or in both something empty or far away) give the same candidate for it. Far away means: 45.84 units for muon candidates, 100.84 for photons, 151.25 for charged candidates, 178.75 for neutral hadrons, and 242.93 for the PUPPI pt. A concrete pair shows that a track 174 units from a neutral hadron changes it, through a muon, a second track, an EM cluster, a calorimeter cluster and a third track. Both firmware and reference.", "quantifier": "all pairs of valid events of any sizes, all memories, all variants of the links in between", "why_tests_cant": "Relates two runs on events that differ arbitrarily outside a disc; the chains that carry an influence over 174 units need six objects in a row.", "anchors": ["firmware/simple_fullpfalgo.cpp:pfalgo3_full", "simple_fullpfalgo_ref.cpp:pfalgo3_full_ref", "puppi/firmware/simple_puppi.cpp:simple_puppi_hw"]}
{"id": "C91", "title": "what comes out around a point depends on what goes in around it", "statement": "Take two events, of possibly different array sizes, that have the same non-empty objects in the same order within R of a point, whatever the slots they sit in and whatever the rest of the event; in both the EM array has a free slot and empty slots are really empty. Then particle flow gives the same list of charged candidates within R - 151.25 of the point, of photons within R - 100.84, of muons within R - 2*45.84, of neutral hadrons within R - 178.75 (if neither output is full), and the same PUPPI pts within R - 242.93. The same holds from the detector: two events in which the tracker, calorimeter and muon sectors send the same within R of a direction, on whatever fibres and with whatever else, give the same candidates and the same PUPPI pts around it in a region that contains it and is not full. The free EM slot is needed: a pair of events agrees within 300 units, one has a full EM array, and a track is kept in one and dropped in the other.", "quantifier": "all pairs of valid events, all array sizes, all points and radii, all memories, firmware and reference; all detector events that fit the regions", "why_tests_cant": "Relates two runs with different array sizes on events that differ arbitrarily outside a disc, through regionizing, sorting, matching and sorting again.", "anchors": ["firmware/simple_fullpfalgo.cpp:pfalgo3_full", "simple_fullpfalgo_ref.cpp:pfalgo3_full_ref", "puppi/firmware/simple_puppi.cpp:simple_puppi_hw", "regionizer/regionizer_ref.cpp:regionize_hadcalo_ref", "regionizer/regionizer_ref.cpp:regionize_muon_ref"]}
{"id": "C92", "title": "one more track", "statement": "Putting a track into a free slot of an event, where no muon can pick it and no EM cluster is within the link distance, changes nothing but this: the track is added to the charged candidates, as a hadron, if its pt is below the threshold for unconfirmed tracks or a calorimeter cluster is compatible with it, and no place of the neutral list gets more pt than it had; if no cluster is compatible the neutral list stays as it was. Muon candidates, photons and all other charged candidates stay. Near an EM cluster this fails: a track can turn a photon into a neutral hadron of more pt, and be dropped itself.", "quantifier": "all pairs of events that differ by such a track, within the arithmetic limits of the larger one; firmware and reference; all sizes, all previous contents of memory", "why_tests_cant": "it compares two runs, for all events and positions of the track", "anchors": ["firmware/simple_fullpfalgo.cpp:pfalgo3_full", "simple_fullpfalgo_ref.cpp:pfalgo3_full_ref"]}
{"id": "C93", "title": "the cones in radians", "statement": "On the grid of the firmware (quarters of a degree) the integer cuts 2101, 84, 525, 756 and 8404 are exactly the cones of 0.2 (muon), 0.04 (track and EM cluster), 0.1 (EM and calorimeter cluster), 0.12 (track and calorimeter cluster) and 0.4 (PUPPI, as its comment says), and the z0 window of PUPPI is 12.8 cm: no pair of directions is treated differently. For objects filled from floating-point directions within 1.1 of the centre of the region the distance is right to 0.0062, so links join only objects within the cone plus 0.0062 and pass all within the cone less 0.0062. Every charged candidate of 20 GeV or more is confirmed by a muon, EM cluster or calorimeter cluster within its cone. The reaches of C90 in radians are 0.2, 0.44, 0.66, 0.78 and 1.06. Between 1.1 and 2.2 from the centre the ten bits can make directions 4.4 apart look like neighbours.", "quantifier": "all directions of the grid; all IEEE roundings to nearest, all real directions in range; all events", "why_tests_cant": "a tie between an integer and a real cut would show only for particular pairs of directions", "anchors": ["firmware/simple_fullpfalgo.h:PFALGO3_DR2MAX_TK_CALO", "firmware/simple_fullpfalgo.h:PFALGO3_DR2MAX_TK_MU", "puppi/firmware/simple_puppi.cpp:DR2MAX", "DiscretePFInputs.h:ETAPHI_SCALE", "firmware/simple_fullpfalgo.cpp:dr2_int"]}
{"id": "C94", "title": "one more calorimeter cluster", "statement": "Putting a calorimeter cluster in a free slot changes no muon and no photon, and in the firmware no charged candidate is lost or changed. If the new cluster takes over no EM cluster, no place of the neutral list loses pt, and all this holds of the reference too. Otherwise the reference, whose EM-protection follows the EM clusters, can lose a charged candidate of 22.5 GeV by a new cluster of 3 GeV.", "quantifier": "all pairs of valid events that differ by one calorimeter cluster in a free slot, all sizes, all old outputs and scratch memory", "why_tests_cant": "a comparison of two events; tests run single events", "anchors": ["firmware/simple_fullpfalgo.cpp:em2calo_link", "firmware/simple_fullpfalgo.cpp:tk2calo_tkalgo", "firmware/simple_fullpfalgo.cpp:tk2calo_caloalgo", "simple_fullpfalgo_ref.cpp:pfalgo3_full_ref"]}
{"id": "C95", "title": "one more object on a link", "statement": "When one word of a fibre that was null carries an object of positive pt, in the firmware and in the reference, with any number of fibres and any sizes: every region of another sector or eta slice is bit for bit the same; in each of the others either nothing changes, or the object stands in its place, the objects after it move by one place up to one object of no more pt which is dropped, and all else is as it was. At most four of the eighteen regions change, no place of any region loses pt, and what is left on the streams is the same.", "quantifier": "all words of all links, all positions of the new object among the words read, all sizes, all object types", "why_tests_cant": "a comparison of two events; tests run single events", "anchors": ["regionizer/firmware/regionizer.cpp:regionize_hadcalo", "regionizer/regionizer_ref.cpp:regionize_hadcalo_ref", "regionizer/firmware/regionizer.cpp:deserialize_ptsort_eta"]}
{"id": "C96", "title": "one more track, from the links to the candidates", "statement": "When one word of a track fibre that was null carries a track: every region of another sector or eta slice gets bit for bit the same particle flow inputs. In a region that can hold everything sent to it, if no muon and no EM cluster of the region can be linked to the track, then in the firmware and in the reference the muons and photons stay as they are, the list of charged candidates is the list of before with the track inserted (as a charged hadron at its position in the region) if its pt is low or a calorimeter cluster is linked to it, and the list of before otherwise; no place of the neutral list gains pt, and it is unchanged if no calorimeter cluster is linked to the track.", "quantifier": "all sensible events on all links, all positions of the new track among the words read, all sizes, all regions, all previous outputs and scratch memories", "why_tests_cant": "a comparison of two events through two stages; tests run single events and one stage at a time", "anchors": ["regionizer/regionizer_ref.cpp:regionize_track_ref", "firmware/simple_fullpfalgo.cpp:pfalgo3_full", "simple_fullpfalgo_ref.cpp:pfalgo3_full_ref"]}
{"id": "C97", "title": "muons and the rest of the event", "statement": "Photons, neutral hadrons and the charged candidates of all other tracks are exactly what they would be if the muons and the tracks matched to them were not there. A track matched to a muon gives the same candidate among the charged candidates (with the id of a muon) and among the muons; if two muons have the same match it is given three times. One more muon leaves the other muons as they are; if no track matches it, or its match is the track of another muon already, nothing else changes; otherwise the rest is as if the track were not there. In firmware and reference alike.", "quantifier": "all events within the limits of the arithmetic (physical ones for one more muon), all sizes, all previous outputs and scratch memories", "why_tests_cant": "a comparison of two or three events; tests run single events", "anchors": ["firmware/simple_fullpfalgo.cpp:pfalgo3_full,spfph_mualgo,spfph_mutrk_link", "simple_fullpfalgo_ref.cpp:pfalgo3_full_ref"]}
{"id": "C98", "title": "one more EM cluster", "statement": "Putting an EM cluster without tracks near it in a free slot gives one more photon, with the pt and position of the cluster, and leaves the muons and all other photons as they are. No charged candidate appears or changes, and only hadrons linked to the calorimeter cluster the new EM cluster belongs to can be lost (a track of 25 GeV can vanish because of an EM cluster that is not near it). If there are no such hadrons, no place of the neutral list gains pt; if the new cluster belongs to no calorimeter cluster, the neutral list stays as it is. In firmware and reference alike.", "quantifier": "all pairs of valid events that differ by one EM cluster in a free slot that no track is near to, all sizes, all old outputs and scratch memory", "why_tests_cant": "a comparison of two events; tests run single events", "anchors": ["firmware/simple_fullpfalgo.cpp:em2calo_link,em2calo_sumem,tk2em_link,tk2calo_link_drdpt", "simple_fullpfalgo_ref.cpp:pfalgo3_full_ref"]}
{"id": "C99", "title": "one more muon", "statement": "If a sector has one more muon, and the three sectors merged with it have no more muons than the muon sector has slots, then every region the muon is in gets it at its place in order of pt, in the coordinates of the region, and loses at most its last slot, and that only if all its slots had muons, or it was full of muons of no less pt; all other regions stay exactly as they are. The same for a word of a muon link that was null. When the muon sector is full the second part fails: a region loses a muon to one that is not in it.", "quantifier": "all pairs of inputs that differ by one muon in a free slot, at any phi of its sector, all numbers of muon slots, all later words on the links", "why_tests_cant": "a comparison of two events, over all positions of the muon and all other muons", "anchors": ["regionizer/regionizer_ref.cpp:merge_muon_in,regionize_muon_ref"]}
{"id": "C100", "title": "one more calorimeter cluster, from the links to the candidates", "statement": "If a word of a calorimeter fibre that was null carries a cluster, and the region it belongs to has room, then the region gets the cluster at its place among those it has. No muon and no photon changes, and in the firmware no charged candidate is lost or changed. If the new cluster takes over no EM cluster, no place of the neutral list loses pt, and all this holds of the reference too. Regions the cluster does not belong to get exactly the same inputs.", "quantifier": "all pairs of link contents that differ by one calorimeter word, all sizes of the regionizer and of the regions, all regions, all old outputs and scratch memory", "why_tests_cant": "a comparison of two events through two stages, for any place of the word", "anchors": ["regionizer/regionizer_ref.cpp:regionize_ref", "firmware/simple_fullpfalgo.cpp:em2calo_link,tk2calo_tkalgo,tk2calo_caloalgo", "simple_fullpfalgo_ref.cpp:pfalgo3_full_ref"]}
{"id": "C101", "title": "one more muon, from the sectors to the candidates", "statement": "If a sector has one more muon, and the three sectors merged with it have no more muons than the muon sector has slots, then in every region the muon is in that has a free muon slot, firmware and reference give the muon candidates of before in the same order, with the track the muon matches inserted as one more if there is one. If there is none, or the track was a muon already, nothing else changes; otherwise the track becomes a muon and the rest of the event is exactly as it would be without the track. All other regions get exactly the same inputs.", "quantifier": "all pairs of inputs that differ by one muon in a free slot, at any phi of its sector, all sensible contents of the other links, all sizes, all regions, all old outputs and scratch memory", "why_tests_cant": "a comparison of two events, and a third without the track, through two stages", "anchors": ["regionizer/regionizer_ref.cpp:merge_muon_in,regionize_muon_ref", "firmware/simple_fullpfalgo.cpp:pfalgo3_full,spfph_mualgo,spfph_mutrk_link", "simple_fullpfalgo_ref.cpp:pfalgo3_full_ref"]}
{"id": "C102", "title": "how far integer linking of tracks to calorimeter clusters is from exact numbers", "statement": "The metric for linking a track to a calorimeter cluster is dR^2 + 756 (deficit/err)^2 rounded down, by less than deficit^2/256 + 1 (at most err^2/64 + 1; 2 for errors up to 2 GeV), except that in the firmware it is up to 245 too small for an error of one unit. So the linked cluster is the best one in exact numbers up to that much. From an error of 440 units (110 GeV) on the reciprocal is 0 and firmware and reference link by distance alone, so that they can choose a cluster two errors away over one four times better.", "quantifier": "all tracks with non-negative pt and error whose window is representable, all cluster arrays of any size; all pt errors", "why_tests_cant": "a bound on rounding for all values, and the place where it becomes total is beyond the pts of a sample", "anchors": ["firmware/simple_fullpfalgo.cpp:init_dr2max_times_pterr2_inv,calc_dptscale,tk2calo_drdptvals,tk2calo_link_drdpt", "simple_fullpfalgo_ref.cpp:best_match_with_pt_ref"]}
{"id": "C103", "title": "events with at most one object of each kind", "statement": "Of an event with at most one track, one EM cluster, one calorimeter cluster and one muon, in any slots, firmware and reference both make exactly the candidates of a closed formula in those four objects (a track is a muon's, an electron's or a hadron's, and what is left of the clusters comes out as photon and neutral hadron). An isolated photon, charged hadron, electron or muon gives what it should, except that an electron whose track and cluster have exactly the same pt is not recognised: its photon-less cluster counts as a hadron's, and without a calorimeter cluster to end in both are lost.", "quantifier": "all events of any size with at most one object of each kind, non-negative values whose errors square into an int, no empty EM slot within 9 units of the track and closer to it than its EM cluster (shown to be needed); all previous memory", "why_tests_cant": "the formula holds for all values and slots; the loss needs two pts to be equal", "anchors": ["firmware/simple_fullpfalgo.cpp:pfalgo3_full,em2calo_sub,tk2em_emalgo,tk2calo_caloalgo,tk2calo_tkalgo", "simple_fullpfalgo_ref.cpp:pfalgo3_full_ref,pfalgo3_em_ref"]}
{"id": "C104", "title": "one object of each kind in the whole detector", "statement": "Let the detector send at most one track, EM cluster, calorimeter cluster and muon, from any sectors, among null words. Then each of the 18 regions gives, from firmware and reference, exactly the candidates of C103 for the objects it sees (provided the track is not within 9 units of the centre of the region, where empty EM slots sit, and closer to it than to its EM cluster). An object is seen by 1, 2 or 4 regions: twice as many if its sector has an even number, twice as many if 57 <= |eta| <= 171. All regions that see everything there is give candidates of the same pts, types and vertices. The region responsible for one of the objects sees all of them if they are within 57 units of it, and there is such a region. A region that sees only part can make something else of it: a photon at the edge of the middle slice is a neutral hadron for the region that misses its EM cluster.", "quantifier": "all detector events with at most one object of each kind, all sizes of arrays and slices that hold one object, all memories, all regions, firmware and reference", "why_tests_cant": "The closed form has to hold for every position, pt and sector and in all 18 regions at once, and compares regions with each other.", "anchors": ["regionizer/regionizer_ref.cpp:regionize_hadcalo_ref", "regionizer/regionizer_ref.cpp:regionize_muon_ref", "firmware/simple_fullpfalgo.cpp:pfalgo3_full", "simple_fullpfalgo_ref.cpp:pfalgo3_full_ref"]}
{"id": "C105", "title": "Files that cannot be opened", "statement": "An MP7 or CTP7 serializer with an empty file name does nothing whatever it is given; with a name that can be opened it writes the file of C38/C64 and says what it saved; with a name that cannot be opened its constructor prints to a null FILE. The human readable serializer with a file that cannot be opened silently does nothing (but its dump functions, called directly, use the null FILE); under the name '-' it prints the same text. The PF bench without its dump file prints one error line and stops at the assert; without one of its pattern files it uses a null FILE before the first test; without the human readable file it ends with the same exit status and the same output less one line, and nothing tells that the file is missing. The regionizer and vertex benches, when one of their dump files cannot be opened, end without using a null FILE exactly when they end with exit status 2 or 3 in the first test (never with 0, not even on an empty input).", "quantifier": "all sets of files that can be opened, all file names, all serializer parameters and event lists, all dump files, all builds and all contents of uninitialised memory", "why_tests_cant": "every test run happens in a directory where all files can be opened; the behaviour depends on the outcome of each fopen, in any combination", "anchors": ["utils/pattern_serializer.cpp:MP7PatternSerializer", "utils/pattern_serializer.cpp:CTP7PatternSerializer", "utils/pattern_serializer.cpp:HumanReadablePatternSerializer", "utils/DiscretePFInputs_IO.h:DiscretePFInputs", "simple_fullpfalgo_test.cpp:main", "regionizer/regionizer_test.cpp:main", "vertexing/bram_hist_vtx_test.cpp:main"]}
{"id": "C106", "title": "PUPPI in events with at most one object of each kind", "statement": "For an event with at most one track, EM cluster, calorimeter cluster and muon (track pt below 362 GeV), particle flow behind its links followed by PUPPI gives, in firmware and reference, the candidates of C103, each neutral with the PUPPI pt of the closed form min(pt^2/32, 2^17-1) * (2^15 / max(1, dR^2/32)) of the kept track if it is from the vertex and in the cone, and of 0 otherwise. If all tracks of the histogram have the same z0, the vertex is the middle of its bin, at most 0.2 cm away; hence the whole chain regionizer - vertex finder - particle flow - PUPPI gives in every region the candidates of C104 with those PUPPI pts. A neutral without its track gets PUPPI pt 0; a photon next to its electron of at least 12.25 GeV and the rest of the cluster of a hadron of at least 41.25 GeV keep their whole pt; both bounds are the best possible.", "quantifier": "all events and all detector events with at most one object of each kind, all weight tables, all vertices, all sizes of arrays, all memories, all regions, firmware and reference", "why_tests_cant": "a closed form for every pt, position and vertex; tests show single values of the weighted pt and never events with one particle", "anchors": ["puppi/firmware/simple_puppi.cpp:simple_puppi_hw", "puppi/simple_puppi_ref.cpp:simple_puppi_ref", "vertexing/firmware/bram_hist_vtx.cpp:bhv_find_pv", "firmware/simple_fullpfalgo.cpp:pfalgo3_full", "regionizer/regionizer_ref.cpp:regionize_hadcalo_ref"]}
{"id": "C107", "title": "tables with fixed columns", "statement": "The lines of the human-readable pattern files, of the regionizer and vertex dumps, and the messages of the comparisons and of the reference in debug mode have fixed columns: every number can be read back from the same characters of every line of its kind, whatever is in the other columns. In the patterns, the comparisons and the debug messages this holds for all objects (the list of inputs: of non-negative pt). The dumps of the regionizer have room for four digits of pt and three of the electromagnetic pt of a calorimeter cluster and of the error of an EM cluster; an object takes its 27, 25, 31 or 26 characters exactly if its numbers fit, and beyond that (an electromagnetic pt of 250 GeV) the columns after it move.", "quantifier": "all objects, all slots with numbers below 1000, frames below 10000, all sizes of arrays, all records of the bench, all ways of rounding decimals to nearest", "why_tests_cant": "files are only compared with themselves; a reader by columns breaks for rare large values", "anchors": ["utils/pattern_serializer.cpp:HumanReadablePatternSerializer::dump_inputs,dump_outputs", "regionizer/regionizer_test.cpp:dump_o", "vertexing/bram_hist_vtx_test.cpp:main", "utils/test_utils.cpp:had_equals,em_equals,track_equals,mu_equals,pf_equals", "simple_fullpfalgo_ref.cpp:pfalgo3_full_ref,pfalgo3_em_ref"]}
{"id": "C108", "title": "one particle, from GeV to GeV", "statement": "A particle whose objects are filled from numbers in GeV and radians, discretised, sent through particle flow (firmware or reference) and converted back to particles is found with its type, its pt to 1/8 GeV (a difference of two: 1/4) and its direction to 0.0022: an EM cluster, alone or inside a calorimeter cluster of little more energy, is a photon; a calorimeter cluster is a neutral hadron; a track with the calorimeter cluster it ends in (within 0.1138, not two errors short) is a charged hadron with that track, and the excess of the cluster over the track is a neutral hadron from 1.23 errors on and nothing below 1.22; a track with an EM cluster at it (within 0.0338) is an electron, with a photon for the excess likewise, unless both have the same pt; a track with a muon (within 0.1938 and half the muon's pt) is a muon. An electron from 20.125 GeV whose track and cluster are given the very same pt, and which is in no calorimeter cluster, leaves no particle at all.", "quantifier": "all pt, errors, directions up to 1.1 and flags within the stated margins, all array sizes above zero, all contents of memory, all ways of rounding floating-point numbers to nearest", "why_tests_cant": "the bench compares firmware and reference with each other, never the particles that come out with those that went in", "anchors": ["DiscretePFInputs.h:fill,floatPt,floatEta", "utils/DiscretePF2Firmware.h:convert", "utils/Firmware2DiscretePF.h:convert", "firmware/simple_fullpfalgo.cpp:pfalgo3_full", "simple_fullpfalgo_ref.cpp:pfalgo3_full_ref"]}
{"id": "C109", "title": "isolated particles in a busy event", "statement": "If a group of at most one track, one calorimeter cluster, one EM cluster and one muon of an event is on its own, that is, nothing else of the event is within the distances at which particle flow links objects, then firmware and reference make of the group exactly the charged candidate, photon, muon and neutral hadron that the formula of C103 gives for the group, whatever the rest of the event, the sizes of the arrays, the slots the group is in and the slots left empty; the neutral hadron is in the list of neutrals if that list has a free slot or has room for all clusters.", "quantifier": "all events in the valid range with any number of objects, all groups in any slots, all array sizes, all contents of memory", "why_tests_cant": "the surroundings are unbounded: every other object of the event and its position is free", "anchors": ["firmware/simple_fullpfalgo.cpp:pfalgo3_full", "simple_fullpfalgo_ref.cpp:pfalgo3_full_ref"]}
{"id": "C110", "title": "an event of well separated particles is the sum of its particles", "statement": "If the objects of an event fall into groups of at most one track, calorimeter cluster, EM cluster and muon each, with objects of different groups outside the distances at which particle flow links objects, then the charged candidates, photons, muons and neutral hadrons that firmware and reference give are together exactly those of the formula of C103 for each group: none is lost, none is added, none depends on another group; the neutrals are complete if their list has a free slot or room for all clusters. In particular firmware and reference find the same particles.", "quantifier": "all physical events, any number of groups, any slots, all array sizes, all contents of memory", "why_tests_cant": "any number of particles at any positions; a test compares two implementations on a few events", "anchors": ["firmware/simple_fullpfalgo.cpp:pfalgo3_full", "simple_fullpfalgo_ref.cpp:pfalgo3_full_ref"]}
{"id": "C111", "title": "an event that falls apart is the sum of its parts", "statement": "If the objects of an event fall into parts of any size, with objects of different parts outside the distances at which particle flow links objects, then running firmware (or reference) on the event finds exactly the particles that running it on each part by itself finds: charged candidates, photons, muons and neutral hadrons, each as often, when the lists of neutrals have room for all clusters.", "quantifier": "all events in the valid range, any number of parts of any size in any slots, all array sizes, all contents of memory", "why_tests_cant": "ranges over all ways to cut an event and all events", "anchors": ["firmware/simple_fullpfalgo.cpp:pfalgo3_full", "simple_fullpfalgo_ref.cpp:pfalgo3_full_ref"]}
{"id": "C112", "title": "particle flow and PUPPI in an event of well separated particles", "statement": "For an event that falls into groups of at most one object of each kind as in C110 (track pts with squares summing to less than 2^21), particle flow behind its links followed by PUPPI gives, in firmware and reference, the candidates of C110, and each photon and neutral hadron the PUPPI pt of the formula with alpha = the sum over the groups of min(pt^2/32, 2^17-1) * (2^15 / max(1, dR^2/32)) for the kept tracks from the vertex in the cone; nothing else has a PUPPI pt.", "quantifier": "all physical events, any number of groups, any slots, all array sizes that fit the links, all vertices, all weight tables, all contents of memory", "why_tests_cant": "any number of particles at any positions and any vertex; the bench compares two implementations on a few events", "anchors": ["puppi/firmware/simple_puppi.cpp:simple_puppi_hw", "puppi/simple_puppi_ref.cpp:simple_puppi_ref", "vertexing/firmware/bram_hist_vtx.cpp:bhv_find_pv", "firmware/simple_fullpfalgo.cpp:pfalgo3_full", "regionizer/regionizer_ref.cpp:regionize_hadcalo_ref"]}
{"id": "C113", "title": "well separated in radians", "statement": "If the eta and phi words of an event are rounded directions within 1.1 rad of the region's centre, and objects of different groups are at deltaR at least 0.2062 (track, muon), 0.0462 (track, EM cluster), 0.1062 (EM cluster, calorimeter cluster) and 0.1262 (track, calorimeter cluster), then the groups are separated for firmware and reference: the event is the sum of its groups (C110), through PUPPI (C112). Empty EM slots stand somewhere too and count.", "quantifier": "all physical events with real directions, any number of groups, any slots, all array sizes, all vertices and weight tables, all contents of memory", "why_tests_cant": "real directions in a continuous domain and any number of particles", "anchors": ["firmware/simple_fullpfalgo.cpp:pfalgo3_full", "simple_fullpfalgo_ref.cpp:pfalgo3_full_ref", "firmware/simple_fullpfalgo.h:PFALGO3_DR2MAX_TK_CALO", "utils/DiscretePFInputs_IO.h"]}
{"id": "C114", "title": "the particles of a region of well separated particles", "statement": "The particles converted from the candidates of a region that falls into groups with at most one object of each kind are, up to order, those of the closed formula for each group, each charged one with the track of its group; so whatever holds for each group run as a region of its own holds for its share of the particles. In particular, for any number of charged hadrons filled from GeV and radians, each track 0.1262 from the other clusters and tracks and clusters 0.0462 and 0.1062 from the region's centre, firmware and reference give each hadron with pt to 1/8 GeV, direction to 0.0022 and its own track, a neutral hadron for each clear excess in a cluster to 1/4 GeV, and nothing else.", "quantifier": "all regions, any number of groups and hadrons that fit the arrays, all array sizes with room for the neutrals, all IEEE rounding behaviours, all contents of memory", "why_tests_cant": "real inputs in a continuous domain, any number of particles; the benches compare implementations and not particles", "anchors": ["utils/DiscretePF2Firmware.h:convert", "utils/Firmware2DiscretePF.h:convert", "firmware/simple_fullpfalgo.cpp:pfalgo3_full", "simple_fullpfalgo_ref.cpp:pfalgo3_full_ref", "DiscretePFInputs.h:PropagatedTrack::fillPropagated"]}
{"id": "C115", "title": "the particles of a region with isolated particles of all kinds", "statement": "A region whose objects are those of any number of pieces, each with at most one track, calorimeter cluster, EM cluster and muon, the objects of different pieces apart (track and muon 0.2062, track and EM cluster 0.0462, EM and calorimeter cluster 0.1062, track and calorimeter cluster 0.1262), gives in firmware and in the reference, up to order, the particles that each piece gives as a region of its own, and nothing else. In particular, if each piece is a photon with or without a calorimeter cluster, a neutral hadron, a charged hadron, an electron or a muon filled from GeV and radians, each comes out with its type, pt to 1/8 GeV, direction to 0.0022 and its own track (or charge 0), and each clear excess as a neutral particle to 1/4 GeV. Particle flow behind its links followed by PUPPI gives for these regions the candidates of the pieces, and each neutral the PUPPI pt of the sum over the pieces.", "quantifier": "all regions, any number and mixture of particles that fit the arrays, all array sizes with room for the neutrals, all IEEE rounding behaviours, all contents of memory", "why_tests_cant": "real inputs in a continuous domain, any number and mixture of particles; the benches compare implementations and not particles", "anchors": ["utils/DiscretePF2Firmware.h:convert", "utils/Firmware2DiscretePF.h:convert", "firmware/simple_fullpfalgo.cpp:pfalgo3_full", "simple_fullpfalgo_ref.cpp:pfalgo3_full_ref", "DiscretePFInputs.h:CaloCluster::fill"]}
{"id": "C116", "title": "the test bench passes on isolated particles", "statement": "On events that fall into groups (regions whose objects are those of pieces with at most one track, calorimeter cluster, EM cluster and muon each, objects of different pieces apart) firmware and reference agree slot by slot, also where C54 has to exclude flagged clusters and track errors of one unit; so the PF test bench exits with 0 on every dump whose first 500 barrel regions are physical, fit the arrays and are made of such pieces.", "quantifier": "all dumps of such events, any number of events, regions and pieces, all array sizes that fit the channels, all three builds, all contents of uninitialised memory", "why_tests_cant": "the bench is the test; that it passes on a class of inputs is a statement about all dumps of the class", "anchors": ["simple_fullpfalgo_test.cpp:main", "firmware/simple_fullpfalgo.cpp:pfalgo3_full", "simple_fullpfalgo_ref.cpp:pfalgo3_full_ref", "utils/test_utils.cpp:pf_equals"]}
{"id": "C117", "title": "dumps that end too early", "statement": "A dump cut off inside an event is not noticed: the event counts as read. Cut before the number of its regions, it has as many regions as an uninitialised variable says, namely those of the event before with their vectors resized to whatever was in memory, then regions of zeros; in particular all regions of the event before can come a second time. Cut after k regions, the number and the first k are right and the others are made up in the same way. Cut after its regions, all regions are right but vertex and PUPPI constants are those of the event before. On a dump with nothing but the beginning of an event the PF test bench reads out of bounds if memory holds 0 and else exits with 0. On a dump of one event cut off after its regions it exits with 0 if firmware and reference agree on the barrel regions.", "quantifier": "all events, all numbers of complete regions, all contents of memory, all array sizes and builds", "why_tests_cant": "the outcome depends on uninitialised memory; complete dumps never show it", "anchors": ["DiscretePFInputs.h:readManyFromFile", "utils/DiscretePFInputs_IO.h:Event::readFromFile", "utils/DiscretePFInputs_IO.h:nextRegion", "simple_fullpfalgo_test.cpp:main"]}
