# Formal model of GlobalCorrelator_HLS in Lean 4

## Trusted base

* Lean 4.33.0's kernel, and the definitions of Mathlib/core used in statements
  (`List`, `Int`, `BitVec`, `Fin`, `Equiv.Perm`, `List.Perm`, ...).
* Axioms: at most `propext`, `Classical.choice`, `Quot.sound` (`lean/Verif/Axioms.lean` prints them
  for every property theorem). No `sorry`, no own axioms, no `native_decide`, no `bv_decide`.
* The reading of the C++ source: nothing is executed. Every definition of the model cites the
  file and lines it transcribes.
* The reading of the Xilinx `ap_int` library (not in /repo), see "Numbers".

## Numbers

* `ap_int<W>` / `ap_uint<W>` registers are `BitVec W`. Reading a register in an expression gives the
  exact integer (`.toInt` signed, `.toNat` unsigned): the library widens results so that `+ - *` are
  exact. Assigning to a register keeps the low `W` bits (`BitVec.ofInt W`).
* `x >> k` on a signed value is floor division by `2^k`.
* C `int` arithmetic is on `Int` with an explicit range check: signed overflow is the outcome
  `Fault.intOverflow`. Converting a wide `ap_int` to `int` wraps modulo 2^32 (two's complement targets).
* Out-of-bounds array accesses, failed `assert`s, missing `return`s and reads of an empty stream are
  distinct outcomes (`Fault`), never silently totalised.
* Uninitialised memory is an explicit parameter ("previous contents") over which theorems quantify.
* Floating point: the PUPPI algorithm takes its weight table as an arbitrary 8-bit table; the code that
  fills the table is modelled over a `FloatImpl` (rounding functions and `log`, `sqrt`, `pow` as functions on
  the reals), one rounding per operation (no fused multiply-add), and C56 assumes only the accuracy stated in
  `Spec.Accurate`. The `z0/20.` binning of `simple_vtx_ref` is exact (truncated integer division). The
  dump-file floats are opaque 4-byte patterns. The discretisation of floats (C61) is over the reals with one rounding per
  operation; the rounding is any function to a nearest binary32/binary64 number (`Spec.IEEE`, with any rule for ties;
  `C61_rounding_exists` shows there is one). Infinities and NaNs are not represented.

Arrays `T a[N]` are `Fin N → T` with `N` a parameter: all theorems hold for every size, the three
build configurations (default, TESTMP7, TESTCTP7) are instances. Loops are folds over the index list
in the program's order with in-place updates.

## Modules

| model | code | not modelled in these files |
|---|---|---|
| `Model/Ap.lean` | ap_int / C int semantics | |
| `Model/Data.lean` | firmware/data.h | |
| `Model/PF.lean` | firmware/simple_fullpfalgo.cpp (algorithm) | `#pragma HLS` (two readings of them are in `Spec/Hardware.lean`: C81, C82) |
| `Model/PFRef.lean` | simple_fullpfalgo_ref.cpp | debug printing (in `Model/PFRefDebug.lean`); `link_ref` (no caller) is in `Model/Unused.lean` |
| `Model/PFRefDebug.lean` | simple_fullpfalgo_ref.cpp: the messages of the debugging mode | text printed before a fault |
| `Model/Encoding.lean` | firmware/mp7pf_encoding.h, `mp7wrapped_*` | |
| `Model/Compare.lean` | utils/test_utils.{h,cpp} | the printed text (in `Model/PFTestOutput.lean`) |
| `Model/Puppi.lean` | puppi/firmware/simple_puppi.cpp, puppi/simple_puppi_ref.cpp | contents of the weight table (a parameter) |
| `Model/PuppiTable.lean` | `lut_puppiweight_init`, `weight_function_float`, `erf_approx` | infinities and NaNs (no operation of the code produces one) |
| `Model/SimpleVtxTestOutput.lean` | vertexing/simple_vtx_test.cpp: the standard output | text printed before a fault |
| `Model/Unused.lean` | `operator<` (DiscretePFInputs.h), `deserialize_ptsort` (regionizer.cpp), `link_ref` (simple_fullpfalgo_ref.cpp), `dummy` (bram_hist_vtx.cpp) | |
| `Model/PuppiTest.lean` | puppi/simple_pfpuppi_test.cpp | the unused `weights` array |
| `Model/RegionizerTest.lean` | regionizer/regionizer_test.cpp: reading, filling, running, comparing, exit status | the printed text (in `Model/RegionizerTestOutput.lean`) |
| `Model/RegionizerFiles.lean` | regionizer/regionizer_test.cpp: the two text dumps (as lists of numbers per line) and the ten MP7 pattern files | the text of the lines (in `Model/Text.lean`) |
| `Model/VertexTest.lean` | vertexing/bram_hist_vtx_test.cpp: the whole program; the conversion of a `float` position to counts is a parameter | the printed text and its statistics |
| `Model/BramHist.lean` | vertexing/bram_hist_vtx*, firmware chain of its test bench | |
| `Model/SimpleVtx.lean` | vertexing/simple_vtx* | `z0bin`, `convertZ0`: called but commented out in the source (parameters) |
| `Model/Regionizer.lean` | regionizer/ (firmware and reference) | |
| `Model/Serializer.lean` | utils/pattern_serializer.* (MP7, CTP7) | text formatting, headers (in `Model/Text.lean`) |
| `Model/RegionizerTestOutput.lean` | the standard output of regionizer/regionizer_test.cpp: configuration, stream errors, mismatches, dumps after an error, destructors | stderr |
| `Model/VertexTestOutput.lean` | the standard output of vertexing/bram_hist_vtx_test.cpp: a line per test, the summary with its floating-point fractions and resolutions, the complaint about sectors, destructors | an infinity or NaN is only its text; `sqrt` is taken to be correctly rounded |
| `Model/PuppiTestOutput.lean` | the standard output of puppi/simple_pfpuppi_test.cpp: reader and tests | |
| `Model/Text.lean` | the text written by utils/pattern_serializer.cpp (all three serializers), regionizer/regionizer_test.cpp (the two dumps), vertexing/bram_hist_vtx_test.cpp (the two dumps), puppi/simple_pfpuppi_test.cpp (the result lines) | the messages on the screen; locale; `fflush` |
| `Model/DumpIO.lean` | DiscretePFInputs.h (I/O), utils/DiscretePFInputs_IO.h | |
| `Model/Float.lean`, `Model/Discrete.lean` | DiscretePFInputs.h: the `fill` functions, `float*` and `setFloat*` accessors; the two conversions of the vertex position | infinities and NaNs |
| `Model/Random.lean` | vertexing/simple_vtx_test.cpp, for one sector; `rand()` is any sequence | the printed text (see `Model/SimpleVtxTestOutput.lean`) |
| `Model/RandomInputs.lean` | utils/random_inputs.h; `ap_int += float` adds the truncated number | |
| `Model/Convert.lean` | utils/DiscretePF2Firmware.h, utils/Firmware2DiscretePF.h | |
| `Model/PFTestOutput.lean` | the standard output of simple_fullpfalgo_test.cpp: reader, comparisons, bench, serializers | failing output |
| `Model/PFTest.lean` | simple_fullpfalgo_test.cpp (all build kinds) | printouts (in `Model/PFTestOutput.lean`); the size named in the `assert`s is the array size |
| `Model/FileOpen.lean` | the serializers, the reader and the three benches that write files, when `fopen` may fail | writing to an open file does not fail; which of two faults shows |
| `Model/PFTestFiles.lean` | simple_fullpfalgo_test.cpp, the files written by the wrapped builds | none; the plain build writes only the human readable file |

`Verif/Spec/*` holds the small independent specifications (they import at most `Model/Data`, the record
types), `Verif/Proofs/*` helper lemmas, `Verif/Props/*` the property theorems with their non-vacuity
examples.  `Verif/Axioms.lean` prints the axioms of every property theorem.

## Reading of the source: choices

* `(bool, ap_int)` concatenation (firmware/mp7pf_encoding.h:15) is read as a one-bit operand.
* `int += ap_uint` / comparisons of `ap_uint` with `int`: exact integers, then stored.
* A left shift of a negative `int` (bin_center_ref) is multiplication; the shift amounts are constants.
* `dr2max_times_pterr2_inv` and other tables that are `static` arrays filled at start-up are functions of
  the index.
* A negative index into a C array is `Fault.oob`.
* `hls::stream` is a FIFO; reading an empty one is `Fault.emptyStream`.
* Pattern files are lists of (frame number, words); files that cannot be opened are in `Model/FileOpen.lean`, the other models
  take every file to be open.  `fprintf` to a null `FILE*` is `Fault.nullFile`.
* Dump files: little-endian, `sizeof(bool) = 1`, a `bool` byte other than 0 reads as true, IEEE-754
  binary32 patterns for `float`; a partial `fread` consumes what is left, leaves the object unchanged and
  sets the end-of-file flag.
* `Event::readFromFile` ends without `return`: the outcome is `Fault.noReturn` unless a theorem says what
  value the caller is assumed to see.
* Vectors have fewer than 2^32 elements.

## Where the code does not do what one would expect

Each of these is a theorem (a counterexample or an exact characterisation) next to the property.

* **PF firmware and reference differ** (C02) when: a hadron-like EM cluster is linked to an EM-flagged
  calorimeter cluster (line 240 of the firmware assigns `keep = false` where the reference assigns `true`,
  so the protection of C15 never acts); a track of pt error 1 has a pt deficit (the firmware table caps the
  scale at 17 bits); an empty track slot that still holds a pt error is linked ("ghost slot": the firmware counts
  its error in the significance of the neutral excess, the reference never looks at it).  `C02_agree_iff_all` says
  exactly when the two agree.  The first happens in the data of the repository (`C02_false_data`).
* C01: pt errors that are negative, or whose square times four exceeds an `int`, are undefined behaviour. The reference
  overflows on events (clusters with less pt than their tracks, huge errors) on which the firmware does not
  (`C01_ref_overflows_where_firmware_does_not`).
* C06: the two-sigma window wraps around for pt errors above 16384.
* C08: the `hwPtPuppi` member of neutral candidates is never written by `pfalgo3_full`; empty output slots
  of the sorter leak the position and id found in memory.
* C13: with muons the order of tracks matters (ties in pt difference).
* C22/C25/C48: one term of the PUPPI sum can exceed an `int` (pt above 1448 at the smallest distances):
  the reference overflows, the firmware wraps and a harder track can give a lower weight.
* C26: a negative track pt fills a firmware bin to 511; C27: `bhv_add_track` trusts the bin index.
* C30: z0 of 300 or more indexes bin 15 of 15 (out of bounds); C31: the 7-bit `pow` of the reduction is
  wrong for 128 tracks and more; C49: with no bin above zero the firmware reports its previous output, and
  the reference counts empty slots as tracks; C50: the 5-bit multiplicity wraps at 16.
* C32: with the default `NCALO = 5 < 7` the firmware regionizer writes out of bounds.
* C36: a muon exactly on a region boundary is given to the next region at local phi +180 (still in range).
* C39/C40: the destructor numbers an incomplete group wrongly unless exactly one event is missing; with the
  default number of links a multiplexed file drops every word beyond channel 144/nmux; `nmux = 0` divides by
  zero; an `nmux` that does not divide 144 fails an assertion.
* C43/C44: `Event::readFromFile` has no `return true`; an event number 0 skips the rest of its regions; an
  event without regions is an out-of-bounds access; `genZ0` is uninitialised.
* C45: eta and phi outside 10 bits wrap (eta 600 becomes -424).
* C46: the generic `fw2dpf::convert` cannot be instantiated for charged particles.
* C57: `simple_pfpuppi_test` passes `NTRACK` tracks to a function that reads `NALLTRACK` of them.
* C58: `regionizer_test` built as its scripts build it (`NCALO` = 5) is out of bounds on the first good event; it compares
  the reference with itself for electromagnetic clusters, tracks and muons, so it can never report a mismatch there.
* C20: the assertions of `mp7wrapped_pack_in`, `mp7wrapped_pack_out` and the unpackers compare with `MP7_NCHANN` (144) in every build. The
  CTP7 bench passes arrays of 67 and 48 words, so larger object counts would pass the assertion and be written out of bounds
  (`C20_ctp7_unguarded`); the counts the CTP7 build uses fit.
* C59: `dump_in.txt` compares the track number with half the number of tracks, so half of the tracks of a sector are
  never in it; an odd number of tracks per sector writes the transposed array out of bounds.
* C60: `bram_hist_vtx_test` counts the disagreements of firmware and reference but exits with 0 whatever the count.
* C61: `PHI_WRAP` is a whole turn and the remainder is C's, so a direction beyond half a turn has two codes (4 and 4 - 2π);
  eta or phi beyond 2.23 do not survive the ten bits of the firmware; a track below 0.305 GeV makes `fillInput` undefined; the
  dump reader truncates the vertex position where the vertex test bench rounds it; a charge of 0 reads back as -1; vertex angles
  of more than 24 bits read like their neighbours.
* C62: `simple_vtx_test` draws the spread of the vertex tracks with `rand()/RAND_MAX`, a division of `int`s: all tracks of the
  vertex get the same `z0`, 0.35 below the vertex it prints. `NALLTRACK` is `1 << NPOW` without parentheses, so
  `NALLTRACK/NSECTOR` is `1 << NPOW/NSECTOR`: right for one sector only.
* C64: link numbers of 100 and more take three characters, so in a file of 144 links the labels of the link line
  drift to the right: from link 106 on a label stands above a later word.
* C63: `RandomPFInputs` adds to clusters it does not clear, never sets `hwTightQuality`, and needs `NCALO` of at least 2.
* C67: `simple_fullpfalgo_test` runs up to 500 tests but a CTP7 file has room for 171 (six rows each, 1024 in all): the others
  are dropped without a message. The default board name already begins with "Board", so the first line of a file reads
  "Board Board MP7_L1PF".
* C71: `ETA_FID_SIZE` (171, declared in regionizer.h and not used) is not the size of the areas the regions can answer for: areas
  of that size round the region centres leave part of the detector to no region, and the overlap round them is narrower than
  the muon link. `PHI_FID_SIZE` (240) does agree.
* C78: the overlap of the regions is too narrow for the PUPPI cone: in a band round eta 100 every region misses part of it
  (`C78_no_region`), and a photon there can lose pt in all regions that contain it (`C78_concrete`).
* C79: the regionizer bench sends calorimeter clusters before EM clusters, the particle-flow wrapper reads EM clusters
  first: connected as they are, a pion and a neutral hadron come out as an electron and a photon (`C79_concrete`).
* C80: electron identification excludes exact balance: an electron whose track has exactly the pt of its EM cluster is not an
  electron, and can be lost without a trace, while it is found at one unit more or less. Firmware and reference agree on it.
* C87: the PUPPI firmware can overflow for one order of its charged candidates and not for another
  (`C87_order_overflow`).
* C88: by truncating `dR²` to multiples of 32 PUPPI overestimates close charged candidates by up to a factor of two (`C88_double`).
* C86: the muon regionizer treats its six regions differently on their borders (`C86_muon_sixth_turn`).
* C83: without a track in the histogram the vertex is its lowest bin, and PUPPI then takes the tracks of one side of the
  detector for those of the primary vertex (`C83_no_votes`, `C83_one_sided`).
* C68: an empty EM slot lies at the origin and attracts tracks: with one more, empty, slot an electron near the origin of
  the region becomes a photon and its track is lost (`C68_ghost`). Empty slots of the other arrays never matter for the firmware.
  For this reason C91 needs a free EM slot in both events: filling the last EM slot with a cluster 400 units away keeps a track that
  is dropped otherwise (`C91_free_slot`).
* C92: a track near an EM cluster can replace a photon by a neutral hadron of more pt and be dropped itself (`C92_near_em`).
* C93: between 1.1 and 2.2 from the centre of a region two directions can be linked through the ten bits (`C93_wrap`).
* C94: the reference can lose a charged candidate of 22.5 GeV by one more calorimeter cluster of 3 GeV that takes away the EM cluster protecting the other one (`C94_ref_loses`); the firmware loses none.
* C97: the track of a muon is given twice, among the charged candidates and among the muons, and a track matched to two muons three times (`C97_thrice`).
* C98: a charged candidate of 25 GeV is lost when an EM cluster appears that is not near the track but takes the energy of its calorimeter cluster (`C98_vanish`).
* C99: when a muon sector is full, one more muon takes a muon away from a region the new one is not in (`C99_lost`): the sort of the 12-to-4 merge drops it although the region it is lost from has free slots.
* C102: for pt errors from 110 GeV on, tracks are linked to calorimeter clusters by distance alone, in firmware and reference, because the integer reciprocal of the squared error is 0 (`C102_by_distance`, `C102_blunt`).
* C103: an electron whose track and EM cluster have exactly the same pt is not recognised (the code asks for a difference above or below zero), so that the cluster counts as a hadron's; if the track is of high pt and ends in no calorimeter cluster, track and cluster are both lost, in firmware and reference (`C103_equal_pt`, `C103_lost_electron`). An electron whose track is within 9 units of the centre of the region and closer to it than to its cluster is a photon if there is a free EM slot (`C103_near_centre`, as C68). See C80 for other events of this kind.
* C104: a region that sees only part of a particle, at its edge, can make something else of it: a photon whose EM cluster is just outside is a neutral hadron for that region (`C104_edge`). Nothing in the repository removes the candidates of a region for which another one is responsible.
* C105: no `fopen` for writing is checked. Without the human readable file the PF bench passes silently (`C105_bench`); without a pattern file its constructor prints to a null `FILE*` (`C105_mp7`); the regionizer and vertex benches close their dumps without a check, so with one missing they cannot end with exit status 0 even on an empty input, but their early `return 2` and `return 3` still work (`C105_example_regionizer`).
* C107: the dumps of the regionizer leave three digits for the electromagnetic pt, in quarters of a GeV; from 250 GeV on the rest of the line moves (`C107_room`).
* C108: in GeV, an electron in no calorimeter cluster is lost from 20.125 GeV on if its track and its EM cluster are filled with the same pt (`C108_lost_electron`); with a difference of 0.26 GeV it is kept (`C108_electron`, if a deficit is under two errors).
* C106: a photon or neutral hadron alone in its region vanishes in PUPPI (weight 0), whatever its pt (`C106_alone`): PUPPI needs a track of the vertex in the cone.
* C117: `readManyFromFile` does not check its `fread`. A dump that ends inside an event makes up regions from the event before and from memory, and the PF bench passes on them (`C117_header`, `C117_repeat`, `C117_bench`); nor does it notice a missing vertex (`C117_trailer_bench`).
* C47: the comparison helpers do not look at `hwTightQuality` and `hwPtPuppi`, nor at anything of an object
  whose reference pt is zero.

## Plan per property

* C01 — outcome of the model is `ok` under explicit input bounds; witnesses of `Fault` outside; on sane pts the bounds are
  derived back from an `ok` outcome stage by stage, which gives the exact condition.
* C02 — stagewise refinement firmware vs reference; counterexamples by kernel evaluation for the
  `keep` flag and `ptErr = 1`; `_partial` theorem under the exact extra hypotheses.
* C03, C04, C10, C11, C12, C14 — decision-logic theorems on the outputs of `pfalgo3_full`.
* C05, C06 — `pick_closest` characterised as first arg-min; combined with the distance model.
* C07, C09 — arithmetic (omega) on the wrapped subtractions.
* C08, C16 — in-place shift pass = sorted insertion on lists; fold = insertion sort; take N.
* C13 — `Equiv.Perm` equivariance of every stage.
* C15 — reference theorem, firmware counterexample.
* C17–C20 — bit-slice lemmas on `BitVec`; frame lemmas for channel writes.
* C21 — `Int.bmod` arithmetic.
* C22–C25 — fold equality of int sums with overflow outcome; arithmetic.
* C26–C29 — invariant "bin = min 511 sum" by induction over the calls; arg-max fold.
* C30 — explicit `oob` outcome characterised; C31 — induction over the reduction levels.
* C32–C37 — sorted insertion / merge refinement to stable sort; stream state passing.
* C38–C41 — state-machine invariant by induction over the call sequence.
* C42–C44 — byte-list encoder/decoder; state machine.
* C45–C47 — list functions; decidable relations.
* C48 — monotonicity of the table step composed with the sum; C49, C50 — arg-max fold, reduction tree.
* C51 — simulation: every stage of the shifted run is the shift of the stage.
* C52 — the distance-only linking as another instance of the parametrised specification.
* C53 — two runs that differ in leftover memory agree on every slot the program writes.
* C54 — verdict of the bench = (all regions agree / first disagreement / undefined), by induction over tests.
* C55 — composition of the two conversions on representable objects.
* C56 — forward error analysis over the reals (`Near` calculus), monotone because the exact step between
  neighbouring entries exceeds twice the error or both truncate alike.
* C57 — out-of-bounds outcome; equality of the two columns from the lemmas of C22.
* C58 — induction over the events of the dump; each test from empty streams leaves them empty (C32, C37).
* C59 — the frames by loop invariants over the packing (C17–C20), the file by C38; the text lines as concatenated blocks.
* C60 — loop invariants for histograms, frames and lines (C26–C28), then induction over the events of the dump.
* C61 — rounding-error bounds from "nearest"; half-integer margins for the round trips.
* C62 — integer bounds survive rounding; loop invariant over the slots; then C30, C31, C49 for each event.
* C64, C65 — a reader for the files (split at characters, parse numbers) is the specification; reading back what was
  written gives the rows, so the text determines them.
* C66 — bounds per cluster from the specification of particle flow (C02), then sums exchanged over the links.
* C70 — a text is split at white space, punctuation and brackets; every `printf` gives one line of words and numbers for all values
  (`Says`), and lines are appended along the run; the reader is followed with the list of items it still has to find.
* C67 — induction over the tests with the pending regions of the dump (C44, C54); C17–C20 for the words, C38, C41, C64 for the files.
* C68, C69 — every notion of the specification commutes with the embedding of an isolated part (first minima and sums are
  preserved); permutations are the embeddings of the whole.
* C72 — the text of every run is computed by induction over the tests beside the run without text (erasing the text gives the
  program of C58); lines as in C70.
* C71 — everything is pulled back to positions on the cylinder (`Spec/Detector.lean`); congruences modulo 1440 by `omega`, then C10,
  C33, C34, C36 and the link specifications.
* C78 — the content of a region is a permutation of what its three sectors send, so sums over it are sums over the sectors;
  in the centre the other sectors and windows contribute nothing; then C03, C07, C22.
* C79 — the two words of each object determine its fields (`extract_*`), so unpacking is read off the links link by link, from
  what C59 says the links carry.
* C80 — from the specification of C02–C07: the EM cluster of a track is unique, and the sum of its tracks is positive.
* C81 — a descending loop whose step `i` reads cells `i`, `i-1` and writes `i` is one clock edge; register addition is commutative
  and associative, so any adder tree gives the sum of the loop; strided rows of the vertex reduction are never read after a write.
* C82 — the memory is defined by recursion on the calls (each reads what the calls whose writes are complete have left); without
  overlap in one bin, the calls not yet written do not matter.
* C83, C84 — arithmetic on the bins and first maxima, from C26 and C29.
* C85 — composition of C32, C37, C26, C19, C02, C03 and C22; what is new is that sums over a region are at most sums over
  the detector (`region_sum_le`) and that the conditions on each region follow from conditions on the streams.
* C86 — the content theorems of the regionizers (C33, and the muon lemmas) commute with turning and reflecting; C51 for
  the boards.
* C87 — the sum of 32-bit products, prefix by prefix (`loopM_wrapsum`).
* C88 — floors bounded term by term in integers, then cast; the real weight is monotone, the table entry is its value at the
  lower edge of the bin (C56).
* C89 — two sorted permutations of each other without ties are equal (`best_perm`), pts of sorted lists always
  (`best_pts`), then C33 for the regions and the uniqueness of the first maximum (C26) for the vertex.
* C90 — triangle inequality on the torus (`gap_triangle`); `SameWithin R p` gives `SameWithin (R - d) q` for a point `q` at distance
  `d`, so each link of the specification uses up its cut; no induction over the event.
* C91 — a partial matching of slots (`Match`) in place of equality of slots, carried through the stages; equal filtered lists give
  such a matching (`match_of_around`) and a matching that keeps order gives equal filtered lists back (`filter_of_match`); filtering
  commutes with insertion sort (`filter_insertionSort`), which takes it through the regionizer and the neutral sorter. The muon regions
  cut two wide sectors at a phi edge before sorting; a muon sector is placed as the calorimeter sector it is centred on (`muPlace_place`).
* C92 — every notion of the specification is compared for the two events; only the sums over linked tracks grow (`sum_links`); in a
  descending list the `k`-th is at least `x` exactly if more than `k` are, so smaller candidates rank lower (`fit_le`).
* C93 — 84, 525, 756 and 8404 are no sums of two squares, so the real cuts, which lie a fraction above them, pass the same grid
  points; π to six digits; the triangle inequality for the rounding.
* C94 — as C92, but links move from the old clusters to the new one, so every sum over linked tracks shrinks.
* C95 — insertion sort of a list with one more object is the sorted list with it inserted (`sort_one`), and with a later object of no more
  pt removed as well (`sort_swap`); once for the slice, once for the region.
* C96 — C95 gives the insertion into the region, counting (`region_length`) that the slot it takes was empty; the permutation that moves
  the new track to that slot is a case of C68, then C92; `flatten_moved` turns slots into lists.
* C97 — every notion of the specification is compared for the event and the event without muons; one more muon and the event without its
  track have the same event without muons.
* C98 — the new cluster only worsens one candidate of the track–calorimeter minimum (`firstMin_worse`), so links elsewhere stay.
* C99 — merging, slicing and picking each keep “one more object of positive pt” (`MoreIn`), and only the last sort can drop it.
* C100, C101 — the event with its empty slot moved to where the new object goes (`gapEvent`, `muonsMoved`) has the same candidates by
  C68, and the single-slot theorems (C94, C97) apply to it.
* C102 — the integer reciprocal and the shift are both floors; the two bounds meet in the rationals.
* C103 — a search among objects of which only one can qualify is that object (`firstMin_only`), a sum over objects of which only one counts is its term (`sum_only`); the formula follows link by link.
* C104 — the slices, candidates and regions of a detector with one object are computed (`slice_lone`, `region_lone`, `muRegion_lone`), which gives the hypotheses of C103 in each region; the formula of C103 depends on distances between objects that are present only (`alike`), and these are the same in all regions (C71).
* C105 — the runs with null files are compared with the runs of the other models: a serializer without a file is the identity, a bench with its files is the same program, and one without is followed up to its first use of a file.
* C106 — the PUPPI sum is rewritten as a sum over the list of charged candidates, which C103 gives; the merged neutrals are the photon and the neutral of C103; the vertex comes from the first-maximum property of C26.
* C107 — a text is taken apart into literals and numbers (`Table.append`); a number has its width exactly if it has few enough digits (`length_fmtD`).
* C108 — the slots of the filled arrays are those of C103 (`region_oneEach`), the conversion skips the empty ones (`convert_one`); rounding bounds of C61 and the cones of C93 turn the hypotheses in GeV into those of the formulas of C103.
* C109 — the group is also a part of the event with only its objects (`only_part`), where C103 applies; C68 says twice that the group gets what it gets alone. A group without EM cluster is given an empty one where it is near nothing (`exists_far`), and its position does not matter to the formula (`absent_em`).
* C110 — C109 for each group; an output slot that is not empty belongs to an input slot that is not empty (`photon_slot`, `neutral_slot`, `muon_slot`) and so to exactly one group (`perm_groups`).
* C111 — as C110, with C68 for each part in place of C109.
* C112 — the PUPPI sum depends on the charged candidates as a multiset, which C110 gives (`groups_puppiSum`).
* C113 — C93 turns deltaR into the integer distances of `Alone`.
* C114 — slots of groups as in C110, with the track behind each slot, through C46; then C108 for each group as a region, views of particles being all that C108 speaks of.
* C115 — the slot of a piece's object is the number of objects of earlier pieces, one list lemma for all four kinds; then distances as in C113, C114_regions, and C108 for each piece.
* C116 — in an event of groups each slot depends on its own group, where firmware and reference give the same list; an equal list of at most one non-empty slot is an equal slot. The bench by C54.
* C117 — a small calculus of what a reader gives at the end of the file and how much of the memory contents it uses.
* C63 — two-run simulation for the leftovers; boxes of representable bounds for the ranges.
* C74 — as C70; `C22_safe` bounds every weight `2^15/(dR²/32)` by `2^15`.
* C76 — digits with their value; the closest number with six digits is unique for an integer, and within half a unit of the last
  digit otherwise.
* C75 — C52 for the links, the insertion lemma of C34 for the stream, sortedness of the padded list.
* C73 — as C72; for the decimals, `a/b` is at least 1/(1000 b) from any midpoint of thousandths it is not equal to, much more
  than the rounding errors (2^-24 relative), and a tie is a number of the type; for the resolutions the same with squares
  (`root_apart`): `0.5 sqrt(s/n)` thousandths within 1e-8 of the half are within the half.
* C77 — each stage with its messages projects to the stage; the decisions of the messages are those of the refinement proof of C01,
  a line at a time.

Nothing on the list is outside what an executable model can express; what is *not* modelled:
HLS pragmas/timing/resource use (except C81: registers clocked together and adder trees, for `unroll`/`array_partition`; C82: one
memory with a call every II cycles and a write a given latency after its read, for `pipeline`/`ram_1p`. These are readings of the
pragmas: the schedule the HLS compiler chooses is not in the repository), the text printed to the terminal (except by the five test benches, C70, C72, C73, C74 and C76, and by the debugging mode of the reference PF, C77; the text of the written files is modelled), build scripts.
Where a run faults, the model gives the fault and no text: how much of the buffered output survives an abort is not determined by
the code.
The scripts were read.  `puppi/run_hls_pfpuppi.tcl` does not list `firmware/simple_fullpfalgo.cpp`, which defines the `dr2_int` that
`simple_puppi.cpp` and its reference call (their own copy is commented out).  The scripts of the PF and PUPPI benches name
`data/regions_TTbar_PU140.dump`, which is not in the repository.  Those of the regionizer synthesise `merge_hadcalo` only.

## Validation against the data of the repository

This is testing of the model, not proof.  The repository ships two dumps of simulated events
(regionizer/data/barrel_sectors_1x12_TTbar_PU140.dump and barrel_alltracks_sectors_1x12_TTbar_PU140.dump).  The byte format
of `Model/DumpIO.lean` reads both to the last byte: 250 events of 12 sectors each.  The models of `pfalgo3_full` and
`pfalgo3_full_ref` were run on every sector (15 tracks, 15 EM and 15 calorimeter clusters, 2 muons, 10 neutrals), with
functions proved equal to the models but with arrays stored in memory.  All 3000 sectors of each file satisfy `Physical`, so the
hypotheses of the theorems hold on them; no run has a fault.  Firmware and reference agree on all but 3 of the sectors (the
same three events in both files), and these differ by the `keep` flag (`C02_false_data` is one of them).

## Mutation campaign

`seeded/LOG.jsonl` records the wrong programs tried against the theorems: for each an edit of one model
definition (made in a scratch copy), the claim it should break, the declarations whose proofs failed, the
property theorems that depend on them, and what was tightened when nothing failed.

Limits of this evidence. "Caught" means that the build of the edited copy failed in a proof the named theorems
rest on; it was not separately proved that each named theorem is false of the edited program, so a failed proof
can also come from a proof step that is merely tied to the shape of the definition. Edits known to leave the claims
true are labelled as such, whether the build survived or failed. A build that stopped at an example or at a lemma no
property theorem uses does not count as caught; these attempts were built again up to the module of the theorem that should fail.
For about a hundred edits the claim named in advance has no theorem among those recorded as failed, since it does not depend on the
declaration that failed, or because the build stopped before it was reached. Such an entry keeps the guess as `claim_named_in_advance`;
its `claim` gives (up to four of) the claims whose theorems failed. These guesses are not confirmed. The equivalences stated in the notes of surviving
edits are arguments by hand, not theorems.
