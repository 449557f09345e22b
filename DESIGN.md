# Formal model of VIRG-Nexus: design

The C sources in `/repo` are read as text and modelled, function by function, as
total computable Lean 4 functions under `lean/Verif/`. Nothing is built or run.

## Trusted base

* Lean 4.33.0's kernel. Property theorems depend at most on the axioms
  `propext`, `Classical.choice`, `Quot.sound`. No further axioms, no `sorry`,
  no `native_decide`/`bv_decide`.
* The reading of the C text: every model definition cites file and lines. The
  link between C text and model is by inspection only.
* Machine assumptions (those of the platforms the project supports): 8-bit
  two's complement bytes, 32-bit `int`, 64-bit `size_t`/`long`, `char` signed,
  little-endian object representation for `fwrite`/`fread` of scalars.
* libc is modelled by its contract: streams are byte lists that never fail (an
  aborted write is not modelled), `malloc` succeeds (the wrappers abort otherwise)
  and `malloc(0)` is not NULL, fresh memory has arbitrary content. `strtol`,
  `atoi`, `atol`, `%d`, `%zd`, `fscanf` `%d`, `fgets` follow ISO C in the "C" locale;
  a value outside the range of the result type of `atoi`/`atol` is undefined;
  conversion of `long` to `int` wraps. `isdigit` and friends applied to a negative
  `char` behave as in glibc (false). `qsort` is an arbitrary function returning a
  sorted permutation. `strtod`/`atof`, `%e`, `%.17g` are parameters.
* Counters of lines, characters and elements do not overflow unless a theorem says
  otherwise (then the overflow is the outcome `ub`).
* Floating point is not modelled bit-exactly, with these exceptions: `float` rounding
  of integers (`round24`, C50, C55), rounding of all numbers to the nearest `float` or `double`
  without overflow (`fround`, C146), and the order of values through their bit patterns
  (C39 without NaN, C145 with NaN). `FLT_EVAL_METHOD` is 0. Elsewhere arithmetic on floats
  is replaced by exact arithmetic on rationals and the definition says so
  (filters, smoothing, resampling); `exp` is an arbitrary positive function.
* Geometry (C57 onwards): numbers are elements of an arbitrary field, an ordered field or
  the real numbers; rounding, overflow and NaN are not modelled, `float` and `double`
  variants of a function are one definition. `sqrt`, `cos`, `sin` are parameters,
  instantiated with the functions of Mathlib in the theorems. A division by zero is
  excluded by hypothesis or is an explicit `none`, never the field's convention
  `a / 0 = 0`. The singular value decomposition (LAPACK) is a parameter; theorems use a
  contract that is shown to be satisfiable (C126: one contract for `dgesvd` on stored
  matrices, from which the contracts used in C62–C73 and C97 follow).
* Specifications of geometry use Mathlib's definitions (`Matrix`, `det`, `Quaternion`,
  `crossProduct`, `Real.sqrt`, `Real.cos`): these definitions are part of what has to be
  read to understand the statements.
* Callbacks, random numbers and hash functions are arbitrary functions (oracles):
  USAC callbacks do not change the model they score, random BRIEF offsets are any
  numbers in their range (the generator itself is modelled in C70 and the choice of
  matches in C69), the option hash may wrap in any way.

## Conventions

* `Res α = ok a | fatal | ub`. `fatal` is process termination through
  `NX_FATAL`/`NX_ASSERT` (debug build). `ub` is undefined behaviour (out of
  bounds access, use after free, signed overflow where relevant); it is a
  distinct outcome so a theorem of the form `f x = .ok y` also says that no
  out-of-bounds access happens.
* C strings are `List UInt8` without zero byte; streams are `List UInt8`.
* Loops become structural or fuel-free well-founded recursion.
* Files, for each area `X`: `Verif/Model/X.lean` the model (one definition per C
  function or loop, each citing file and lines), `Verif/Spec/X.lean` the small
  independent specification used in the statements, `Verif/Lemmas/X*.lean` auxiliary
  lemmas, `Verif/Props/X.lean` the property theorems `cNN_…` and the non-vacuity
  examples. `Verif/Core.lean` has the outcome type and checked array access.
* A theorem about the failure of a claimed property has a name that says what happens
  instead (`c25_false_becomes_true`); the part of the claim that does hold has the
  suffix `_partial`.

### Simplifications, by area

* JSON parser and printer: a tree is a value; the pointer structure is modelled
  separately (C24, C25, C56). Recursion is bounded by fuel, running out of it is `ub`
  and is excluded by C23. Stack depth is not modelled.
* Strings and string arrays: a heap of string objects, each freed at most once.
* Memory blocks: addresses are abstract, copying a block onto itself is excluded.
* Graphs: adjacency lists are value lists in insertion order.
* Data frames: cells are tagged values; the padding of records is not modelled.
* Options: leaving the program after printing help is `fatal`; help texts belong to
  printing (C107) only.
* FAST: both decision trees of `fast_9.c` are transcribed by a script into data and
  checked in the kernel; scores are integers.
* Images: source and destination are different objects, `stride * height` fits `int`,
  the image after a failed load is not modelled, float samples are rationals.
* Matrices: fixed size arrays are structures, results do not overlap arguments unless the
  function works in place.
* Homographies: the rows of the linear system are a list of vectors; counts do not overflow.
* Statistics: `int` sums overflow as `ub`; means are outside the model.

## Properties: what is modelled and how it is proved

| id | model | proof |
|----|-------|-------|
| C01, C02, C03 | `nx_fputs_readable`, `nx_fputs_double_quoted`, `nx_xstr_from_readable`, `nx_xstr_from_double_quoted` as byte-level loops with explicit remaining size and output buffer bound | induction on the string; abort condition by an independent grammar of escaped texts |
| C04 | `nx_strwrite/nx_strread/nx_strread0` on byte streams with 8-byte little-endian lengths | round trip with arbitrary suffix, lifted to lists by induction; truncation by length |
| C05, C06, C07 | string array as (size, capacity, slots) over a heap of string objects; `NX_ENSURE_CAPACITY` | refinement to `List (Option String)`; serialization by C04; C07 is false for i=j (`nx_strredup` frees first): negation by witness, partial for i ≠ j |
| C08 | `nx_memncpy_multi` with cursor `(src_offset, offset)`; reading `l_src[n_src]` is `ub` | invariant cursor ↔ number of bytes delivered |
| C09 | `nx_hash_to_str` | explicit digit formula, injectivity |
| C10, C11 | `nx_sha256_process_block`, `nx_sha256_multi`, `nx_sha256` on `BitVec 32`, with the block buffer | refinement to an independently written FIPS 180-4 specification (constants given through integer roots of primes); padding lemma over all lengths. The final call reads `lmsg[n_msg]` when the message fills whole blocks: the `ub` is shown, the digest theorem is stated for the reading in which that (unused) value is arbitrary |
| C12 | `nx_bit_count32/64` with the MASK macros | SWAR invariant on natural numbers, all arguments |
| C13 | `nx_rotr32/64`, split/compose | bitwise extensionality |
| C14 | `nx_bit_array_*` on byte lists | invariant over histories |
| C15 | memory blocks over an abstract heap of allocations | invariant over operation histories |
| C16–C19 | `nx_lexer_*` state machine | invariants; grammar predicates for numbers and quoted strings. Byte 0xFF is indistinguishable from end of input in this lexer (signed char): recorded as negative theorem |
| C20–C24 | JSON lexer, parser, printer, tree | round trip by structural induction on trees; parser by well-founded recursion on the remaining input; C21 and C22 are false of the code (false/null nodes are created as TRUE, trailing text accepted): negation by witness and partial theorems |
| C25 | `nx_json_bundle.c` on the node heap of C24 | a composable round-trip predicate stable under later construction calls; booleans fail because of C21 |
| C26, C27 | CSV lexer and parser | round trip by induction on rows |
| C28, C29 | `pick_larger_type`, column typing, value conversion | lattice laws; C29 false for octal/hex texts (negation), partial for decimal texts |
| C30, C31 | data frame columns with NA flags and factor levels | refinement to a table of optional values |
| C32, C33 | `nx_data_frame_fprintf`, `nx_data_frame_load_csv_stream` | partial round trip, negations for the known losses; C33: loop never terminates, negation |
| C34, C35 | option table with 32-bucket hash map, argument parser | map refinement; specification of the parse by last occurrence |
| C36 | adjacency matrix / list insertion | refinement to a finite weighted graph; list edge counter never updated (negation) |
| C37 | `nx_dmat_transpose` with its bit array | permutation-cycle invariant, for all m, n |
| C38 | `nx_convolve_sym`, `nx_convolve_box`, border fill | loop invariants over a commutative ring |
| C39 | statistics on the sorted sample; mean and standard deviation over the reals | sortedness and order statistics; loops as sums |
| C40 | USAC loop with abstract callbacks as oracles | invariant over iterations |
| C41 | keypoint stream I/O | as C04 |
| C42 | `fast_nonmax_suppression` with its two moving pointers | loop invariant, equivalence with the 8-neighbour definition |
| C43, C44 | the generated decision tree of `fast_9.c` as data, transcribed mechanically | a leaf checker evaluated by the kernel on the whole (finite) tree and proved sound once |
| C45, C46 | BRIEF distance and serialization | table correctness (finite), induction on length; C46 is false (arguments swapped in read): negation and partial |
| C47 | PNM writer and both loaders, `fscanf` `%d` contract | round trip on byte streams; the non-aborting loader skips a line with `fgets` |
| C48 | downsample/upsample index arithmetic | bounds by arithmetic |
| C49 | `nx_image_convert_f32_to_uc` | false (always 0): negation |
| C50 | `nx_getline` with buffer growth | loop invariant; end of stream is reported as an empty line: negation |
| C51, C52 | `nx_fast_detector_adapt_threshold`, argmax | invariant; induction |
| C53 | BRIEF extraction with the limits of the extractor | bounds by monotonicity of the scaling; bits by induction on octets |
| C54 | `nx_kernel_sym_gaussian`, sizes, convolution of constants | sums over rationals by induction |
| C55 | `nx_rgb_to_gray_uc` with `float` rounding | interval arithmetic on the rounding errors; witness for gray 7 |
| C56 | `nx_json_bundle_keypoint` and its inverse on the node heap | composition lemma for bundles; the id passes through `int`: negation and partial |
| C57 | 3×3, 4×4 and general matrices, vectors | polynomial identities over any field against Mathlib's `Matrix`; loop invariant for the general product |
| C58, C59 | quaternions, Euler angles, axis-angle | against Mathlib's `Quaternion`; the four branches of `from_R` by the equations of a rotation matrix |
| C60 | similarity, affine and perspective transformations | polynomial identities (the formula times `det` takes corner `i` to the unit corner times a product of triangle areas); witnesses for the meaning of the returned value |
| C61 | `nx_homography_transfer_fwd`, `estimate_4pt` | composition of C57 and C60, uniqueness by four fixed points; missing check of the source points: negation and partial |
| C62 | `estimate_dlt`, `_inliers` | residual identity, minimality through the contract of the decomposition; value returned for four points is indeterminate |
| C63 | `mark_inliers`, transfer errors | induction on the list |
| C64 | `nx_homography_check` | exact characterisation; scale dependence: negation and partial |
| C65 | match statistics, normalisation and denormalisation | sums by induction; conjugation by the two normalising matrices |
| C66 | epipolar distance, `fix_rank`, estimation of F | Eckart–Young for rank 2 through the orthogonal invariance of the Frobenius norm; minimality through the contract of the decomposition |
| C67 | essential matrix from F, from R and t, decomposition | conjugation of cross product matrices; completeness by reduction to the third axis; transposed reading in `essential_from_fundamental`: negation and partial |
| C68 | signs of depths, choice among the pairs | sign identities for triple products; the wrong pairs have no positive sum |
| C69 | `sample_s`, index computation, selection of 4 and 8 candidates | rounding of naturals to 24 bits; the rejection loops by induction on the stream; index `n` and equal indices: negation and partial |
| C70 | SFMT19937: recursion, block generation, array filling, seeding, certification | circular buffer invariants over a mathematical sequence; bit level equality of the 128 bit shifts; parity as a count of bits; backwards invertibility for the zero state |
| C71 | RANSAC for homographies with local growth of the candidate set, refinement loop, normalisation | one generic loop over a list of random numbers (may run out: `starved`); invariants relate the marks to a test that ignores marks; refit by the theorems of C64 and C65; uninitialised best hypothesis and out-of-range index as undefined behaviour |
| C72 | the same for fundamental matrices | the generic loop with the eight point estimate; refit by C66; the distance to the epipolar line under normalisation |
| C73 | pinhole camera: projection matrix, projection, triangulation | field identities; minimum over a fold; two rays determine a point; null space of the constraints; overflow of the output arrays as undefined behaviour |
| C74 | normal variates: which places are written, which numbers are used, distribution, ownership | induction two samples at a time; specification by filtering the list of points; polar coordinates and substitution in the Lebesgue integral (`gaussianReal` of Mathlib) |
| C75 | image derivatives | loop invariant on pixels, rows and columns (`rows_spec`, `pixels_spec`); specification by linear extrapolation |
| C76 | image arithmetic, normalisation | loop invariants; fold over the samples in the order of the rows |
| C77 | smoothing and box filters of images | invariant for buffer and destination over rows and columns, on top of C38 and C54; sums of Mathlib |
| C78 | affine warp and rotation of images | case analysis of the positions by mode over exact rationals, refinement of the loops to one definition per pixel |
| C79 | scaling of images | bounds on positions from the rounded sizes, refinement of the loops |
| C80 | life cycle and memory of images | invariant over histories on top of C15; the pixels are read through the pointer of the header |
| C81 | image pyramids and their builder | the builder is proved for any functions for images with a contract, which is then proved for 8-bit images and for the smoothing of images |
| C82 | Harris detector and its class | detection by an invariant over the scan; the score from C75 and C77; the absence of corners by the Cauchy-Schwarz inequality |
| C83 | matching of SIFT descriptors | invariant for the two smallest distances; the test is monotone in the second one |
| C84 | cache and files of SIFT keypoints | invariant over histories of calls: each file belongs to an earlier call with the same digest; on top of C09, C11 and C41 |
| C85 | SIFT descriptors | each update adds a product of triangles; sums over loops; scaling commutes with every step |
| C86 | orientations of SIFT keypoints | loop invariants for the buffer that is overwritten in place; sums over loops; finite evaluation only for the witness |
| C87 | search for extrema in differences of Gaussians | nested loop invariants; comparison list against the quantified neighbourhood; eigenvalue form of the edge test |
| C88 | interpolation of extrema | induction over the tries with an invariant for the position |
| C89 | key store and creation of keypoints of the SIFT detector | abstraction to a list; induction over the directions |
| C90 | generic vectors on memory blocks | refinement of the memory model to lists, by an invariant over reachable states |
| C91 | text format of matrices | induction over lines on the models of getline (C50) and transposition (C37) |
| C92 | transformations, buffer sizes, sampling and background of the affine warp processor | field identities, bounds of affine functions on rectangles, induction over pixels |
| C93 | `VGDescriptorMap`: clear, set_n_octets, add, search_nn, search_by_id, accessors | an invariant over all histories, which aligns the flat memory with the list of identifiers; induction over the searches |
| C94 | conversion of image types and sample types; colour maps with their tables | induction over pixels and channels; error bounds for every monotone rounding; finite check of the tables |
| C95 | `nx_fast_detector.c`: detection, scoring, suppression, pyramid, orientation | buffers are lists of stored keypoints; the copy of a keypoint in the suppression is recovered from position and score; `atan2` abstract; int overflow of moments and offsets is `ub` |
| C96 | `nx_kitti_slam.c`: data set, sequence loading, freeing, frame names | files and directories as functions of their names; `fscanf` abstract; pointers to poses are optional matrices; reading from a null stream is `ub` |
| C97 | `nx_usac_homography.c`: callbacks and driver on the model of `nx_usac.c` | callbacks run in a state that can be undefined or out of random numbers; the value of the undefined conversion is an optional parameter |
| C98 | `nx_temple_color_128.c`: loading, attributes, ground truth, freeing, printing, frame names | files and directories as functions of their names; `fgets` with its buffer of eight bytes; `fscanf` of `%f` abstract |
| C99 | `nx_checkerboard_detector.c`: local Radon images, score | built from the filters and rotations of `nx_image.c`/`nx_image_warp.c`; exact arithmetic; four distinct images |
| C100 | `nx_image_io.c`: kinds of files, saving, loading | files as functions of their names; libjpeg and libpng as parameters |
| C101 | `nx_vgg_affine_dataset.c` | as C98; image loading by C100 |
| C102 | `nx_panorama_builder.c`: network, shortest paths, matrices to the reference | addition of `double` as a monotone parameter; loops along paths with a bound on rounds that is shown to exist |
| C103 | `nx_panorama_builder.c`: size, origin and composition | positions exact, conversion to `int` undefined outside of its range |
| C104 | `vg_stereo_matcher_main.cc`: matching and guided matching; `VGBriefExtractor::compute_pyr` | built on the map of descriptors (C93); results as a function of the left keypoint |
| C105 | `vg_stereo_matcher_main.cc`: nonlinear refinement; `nx_dsym_solver` | derivative as an exact difference identity; induction over tries and iterations |
| C106 | `nx_sift_detector.c`: new, prepare_octave, process_octave, compute | loop invariants over levels, scales and octaves; inductive specification of the octaves |
| C107 | `nx_options.c`: print_values, print_usage and their texts | induction over the list of options; buffers with explicit bounds |
| C108 | `vg_point_correspondence_2d.cc/.hpp`: the class of correspondences with its shared statistics | refinement of a machine on values; induction over programs |
| C109 | `nx_alloc.c`, `nx_alloc.h`: malloc, calloc, NX_NEW, NX_ENSURE_CAPACITY | potential function for the cost; induction over additions |
| C110 | `nx_options.c`: allocation and freeing | ownership: the allocated blocks are exactly the blocks reachable from the options, by counting; induction over programs |
| C111 | `nx_data_frame.c`: allocation and freeing | ownership: the allocated blocks are exactly the blocks reachable from the frame, by counting; induction over programs |
| C112 | `nx_csv_parser.c`, `nx_csv_lexer.c`, `nx_data_frame_load_csv_stream`: allocation and freeing | ownership by counting; induction over tokens, fields and records |
| C113 | `nx_image_io_png.c`, `nx_image_io_jpeg.c` | case analysis over the transformations, loop invariants over rows and pixels, ownership by counting |
| C114 | `nx_json_tree.c`, `nx_json_parser.c`, `nx_json_log.c` (memory) | ownership by counting, a contract for the functions of the parser, induction over programs |
| C115 | `nx_brief_extractor.c` (angle, pyramid), `vg_brief_extractor.cc` | induction over the octets, monotonicity of the scaling, exactness of `float` for small integers |
| C116 | `nx_fit_homography_main.c` without printing | normalisation (C65) and USAC (C97) composed, induction over the steps, ownership ledger |
| C117 | `nx_gc_cairo_imp.c` without text, fills and dashes; `vg_image_annotator.cc`; cairo as a path machine after its manual | strokes as sets of points of the real plane, induction over keypoints and matches, row copies as loops, ownership ledger |
| C118 | `nx_gnuplot.c`; `printf` for `%s`, `%d`, `%lf`; a reader for gnuplot's input after its manual | reader as a state machine over bytes, lemmas for words and texts, induction over rows and columns, ownership ledger |
| C119 | `nx_log_c_impl.c`; `stderr` as a list of bytes, the device and the names of the frames as parameters | a reader for lines and a filter for control sequences, induction over the calls from the end |
| C120 | `nx_filesystem.c`; the file system as a map, system calls as atomic steps, several processes as a schedule | invariant over schedules, refinement to the list of names through the representation of string arrays, ownership ledger |
| C121 | `nx_io.c` (opening and closing) and the functions that save and load files by name; streams with a buffer, a disk of limited size | invariant of streams over all writes and flushes, ownership ledger of open streams |
| C122 | `nx_erf` of `nx_math.c`, over the real numbers | the derivative of the error is a polynomial times the Gaussian; its sign between its zeros by positive coefficients; values at the zeros by alternating partial sums of rational numbers evaluated in the kernel; monotonicity and the limit at infinity |
| C123 | which blocks images, pyramids, builders, SIFT and FAST detectors, warp processors and BRIEF extractors own | each operation keeps the multiset of allocated blocks equal to the blocks of the object and of the rest of the program; induction over the operations |
| C124 | which blocks the graphs of `nx_graph.c` own | the multiset of allocated blocks; the nodes of a list are exactly the joined vertices, by induction over the edges |
| C125 | which blocks the panorama builder and the SIFT functions with a cache own and lose | the multiset of allocated blocks with a list of lost blocks whose length is counted; induction over images, pairs and runs |
| C126 | the wrappers of `dgesvd` in `nx_svd.c` | a contract for the library on stored matrices; existence of a decomposition from the spectral theorem; the assumptions of C62–C73 and C97 are instances |
| C127 | the estimations of `vg_stereo_matcher_main.cc` and the end of its `main` | the object of correspondences is normalised and denormalised around C71 and C62; C105 for the last step |
| C128 | `nx_sift_benchmark_main.c`: evaluate_vgg_pair, run_vgg_benchmark | inversion of every run that ends, C83 and C101 for those that do; marks do not influence later counts |
| C129 | `vg_image.cc`: VGImage, create, create_like, copy_of, clone, wrap, swap_with, release, set_zero, the implicit copies and the destructor; `vg_image_pyr.hpp` operator[] | invariant of the groups of handles over the states of C80; the effect of each call by cases |
| C130 | `nx_uniform_sampler.c` whole, as a world of samplers with the shared one | refinement of the samplers to seeds and counts, uniqueness of the sequence of a seed, induction over programs |
| C131 | `nx_sift_detector.c` 55-83, `nx_sift_default_parameters`, `vg_options.cc` 42-118 | reduction to the declarations of C34 and the parse of C35 |
| C132 | `nx_image.c` 119-153, 677-804 with `dest == src`, `nx_mem_block.c` 61-95, `vg_image.cc` 179-183 | loop invariant: the first places hold the samples at even places, the rest is unchanged |
| C133 | `nx_image.c` 488-493, 583-617, 1187-1271 with the destination as a source, `vg_image.cc` 211-221 | loop invariants over the memory as a function |
| C134 | `SFMT.c` 165-183, 384-453: seeding with an array | simulation by steps on functions, each step inverted, the last 318 steps read off the state, then the first ten, then the others in order; keys of 625 words counted against states |
| C135 | `SFMT-sse2.h`: recursion on registers, pass over the state, filling of arrays | both refine the sequence of the generator, whose window determines the words |
| C136 | `src/GL/nx_gl_projection.c` | matrix identities over an ordered field, in terms of clip, device and window coordinates |
| C137 | `src/GL/nx_gl_buffer.c`, `nx_gl_shader.c`, `nx_gl_program.c`, `nx_gl_program.h`; the library as a state of names, stores, bindings, marks | case analysis over the answers of the library, freshness of names, arrays of the log |
| C138 | `nx_image_pyr.c` 84-105, `nx_image_pyr_builder.c` 159-220 at the level of memory | memory blocks and headers of C80; the bytes of the image through two resizings and a copy |
| C139 | `nx_image.c` 437-486 with one image | bytes of the whole memory of the image; the colour maps of C94; the channel a value is read from, by induction over the columns |
| C140 | `vg_image_pyr.cc`, `vg_image_pyr.hpp` 39-70 | images as allocated or not, pyramids and builders with their images, variables as pairs of shared pointers; invariant by induction over calls |
| C141 | `nx_image.c` 535-581, 620-662 with one image, `vg_image.cc` 173-177 | loops over one list of samples that is the whole memory of the image; exact result by an invariant over the loops |
| C142 | `nx_image.c` 819-930 with one image | loops over one list of samples that is the whole memory of the image; the exact line by an invariant, rows and columns by a second one |
| C143 | `nx_brief_extractor.c` 60-102, 140-173, `vg_brief_extractor.cc` 34-59 | numbers of the generator as a list, exact rounding to 24 bits; induction over the numbers and the tests |
| C144 | `vg_brief_extractor.hpp` 38-76, `vg_brief_extractor.cc` 34-59: variables of the class | heap of extractors and variables with shared pointers; invariant, specification of each call by tests and sharing, induction over programs |
| C145 | `nx_math.h` 61-98, `nx_statistics.c` 37-95: order of floating point numbers | bits of IEEE 754 with values in units of the least positive number; order by cases, induction over arrays |
| C146 | `nx_keypoint.h` 53-71, `nx_image_pyr_builder.c` 211-214: positions on the first image | rounding to `float` as a function on rational numbers; error bounds and a proof that rounding to nearest even keeps steps of one |
| C147 | `nx_colorspace.h` 46-56, `nx_colorspace.c` 66-100: gray values in `float` | C146's rounding; linear bounds on the relative errors |
| C148 | `nx_image.c` 535-582 and 620-662: scaling of images in `float` | C146's rounding; bounds on the last position, for widths from 2362 on a table of the least scales; the part behind the point is exact |
| C149 | `nx_statistics.c` 37-177: mean and standard deviation in `double` | C146's rounding; induction over the error of the sum; sums of ints are exact |
| C150 | `nx_uniform_sampler.c` 114-122, `SFMT.h` 237-306, `nx_image_warp.c` 89: uniform samples in floating point | C146's rounding; a bijection for each multiple of 2^-53; monotonicity between the ends of intervals |
| C151 | `nx_filter.c` 115-131, `nx_image.c` 1055-1185: box filter in `float` | running sums as recursive functions of the line; exactness for integers; monotone rounding between integers; witnesses for all widths by induction |
| C152 | `nx_filter.c` 71-113, `nx_image.c` 946-1053: Gaussian smoothing in `float` | computed sums as recursive functions of the line and of the values of the Gaussian; relative error of sums of numbers that are not negative; kernel evaluation for one standard deviation |
| C153 | `nx_timing.h` 35-55: the timer | C146's rounding; exactness of integers below 2^53; monotone rounding at 1000 and -1000 |
| C154 | `nx_alloc.c` 34-59, `nx_filter.c` 253-264, `nx_image.c` 932-944: aligned memory | least multiples by division; unsigned wrap-around |
| C155 | `nx_image.c` 1187-1271: derivatives in float arithmetic | C75's loops with rounding; doubling commutes with rounding on multiples of 2^-149 |
| C156 | `nx_image.c` 204-253, 277-291: normalisation in float arithmetic | relative errors of the rounded reciprocal; clamping does not increase errors |
| C157 | `nx_image.c` 255-275: axpy on bytes in float arithmetic | C156's rounding lemmas; truncation moves by at most one |
| C158 | `nx_image_warp.c` 35-145: affine warp in float arithmetic | carried positions as a recursion; error by induction on the pixel; integers are exact |
| C159 | `nx_image_warp.c` 147-194: rotation by 45 degrees in float arithmetic | reduction to C158; error of the translation |
| C160 | `nx_image_warp.c` 196-244: rotation of float images in float arithmetic | C159's positions; growth of the interpolation by rounding |
| C161 | `nx_affine_warp_processor.c` 530-571: warps between buffers in float arithmetic | C158's pixels and positions; `fill_keep` of C92 |
| C162 | `nx_affine_warp_processor.c` 573-655: background in float arithmetic | C158's positions; pixels of C92 |

No property is claimed outside this table; `MANIFEST.json` gives the status of each.

## Not modelled

Rounding of floating point (Gaussian kernels, SIFT, estimation), the algorithms inside LAPACK
(only contracts of decompositions are used, which are proved satisfiable), the OpenGL library (its specification is assumed in C137), Cairo, JPEG/PNG codecs, logging,
file system access, SIMD variants of SFMT and the length of its period, threads, performance.
