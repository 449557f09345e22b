{"id": "C01", "title": "Backslash-escaped output reads back exactly", "statement": "Writing any C string with nx_fputs_readable and converting the text between the surrounding quotes with nx_xstr_from_readable returns the original string byte for byte, without an abort.", "quantifier": "every NUL-free byte string", "why_tests_cant": "infinitely many inputs; a test samples a few of them", "anchors": ["src/nx_io.c:nx_fputs_readable", "src/nx_string.c:nx_xstr_from_readable"]}
{"id": "C02", "title": "Readable-string conversion aborts exactly on malformed escapes", "statement": "nx_xstr_from_readable aborts the process if and only if the given bytes contain a backslash not followed by one of r t n \\ f b \" (or ending the text); otherwise it returns a string no longer than the input, and it never reads beyond the given size or writes beyond the size+1 bytes it allocated.", "quantifier": "every byte string and every size equal to its length", "why_tests_cant": "the claim covers all malformed inputs and all buffer accesses", "anchors": ["src/nx_string.c:nx_xstr_from_readable"]}
{"id": "C03", "title": "Double-quoted output reads back exactly", "statement": "Writing any C string with nx_fputs_double_quoted and converting the text between the outer quotes with nx_xstr_from_double_quoted returns the original string; the conversion aborts iff the quotes inside the text are not all doubled.", "quantifier": "every NUL-free byte string; every input byte string for the abort condition", "why_tests_cant": "infinitely many inputs; a test samples a few of them", "anchors": ["src/nx_io.c:nx_fputs_double_quoted", "src/nx_string.c:nx_xstr_from_double_quoted"]}
{"id": "C04", "title": "Binary string serialization round trip", "statement": "Strings written one after another to a stream with nx_strwrite are read back in order and unchanged with nx_strread/nx_strread0 whatever buffer size the reader passes, each read consumes exactly the bytes of its string, and a stream cut anywhere inside a record makes the read of that record fail.", "quantifier": "every list of strings shorter than 2^31 bytes, every trailing stream content, every truncation point, every initial reader buffer", "why_tests_cant": "all lengths, cut points and buffer sizes at once", "anchors": ["src/nx_string.c:nx_strwrite", "src/nx_string.c:nx_strread", "src/nx_string.c:nx_strread0"]}
{"id": "C05", "title": "String array behaves as a list", "statement": "Any sequence of append, resize, set, copy and get calls on a string array gives the same observations as the same sequence on an ordinary list of optional strings; the reported size is the list length, and no element beyond the allocated capacity is ever touched.", "quantifier": "every finite history of operations (sizes below 715 million, so that the int capacity cannot overflow; strings of the caller or of other elements)", "why_tests_cant": "the number of histories is unbounded and capacity growth depends on the whole history", "anchors": ["src/nx_string_array.c", "include/virg/nexus/nx_alloc.h:NX_ENSURE_CAPACITY"]}
{"id": "C06", "title": "String array serialization round trip", "statement": "A string array whose elements are all non-NULL written with nx_string_array_write is read back by nx_string_array_read as an array with the same size and elements, and every proper prefix of the written bytes is rejected.", "quantifier": "every array of NUL-free strings, every truncation point, every previous content of the receiving array", "why_tests_cant": "unbounded sizes and cut points", "anchors": ["src/nx_string_array.c:nx_string_array_write", "src/nx_string_array.c:nx_string_array_read"]}
{"id": "C07", "title": "Assigning a string array element to itself is safe", "statement": "nx_string_array_set(a, i, nx_string_array_get(a, j)) leaves element i equal to the former element j for all i and j, without touching freed memory.", "quantifier": "every array and every pair of indices", "why_tests_cant": "use after free usually goes unnoticed in a test run", "anchors": ["src/nx_string_array.c:nx_string_array_set", "src/nx_string.c:nx_strredup"]}
{"id": "C08", "title": "Scattered copy equals copying the concatenation", "statement": "Calling nx_memncpy_multi repeatedly with its cursor delivers, chunk after chunk, exactly the concatenation of the source buffers in order; each call copies min(n, bytes left) bytes and never reads outside a source buffer.", "quantifier": "every list of source buffers (empty ones included), every sequence of chunk sizes", "why_tests_cant": "all segmentations of all inputs", "anchors": ["src/nx_string.c:nx_memncpy_multi"]}
{"id": "C09", "title": "Hash text is the fixed-width lowercase hexadecimal form", "statement": "nx_hash_to_str(n, h) has exactly 2n lowercase hexadecimal digits and determines the n bytes: equal texts mean equal hashes.", "quantifier": "every byte array", "why_tests_cant": "all byte arrays; injectivity relates every pair of inputs", "anchors": ["src/nx_string.c:nx_hash_to_str"]}
{"id": "C10", "title": "SHA-256 conforms to FIPS 180-4", "statement": "nx_hash_sha256 returns the FIPS 180-4 SHA-256 digest of the message, for every message length including the lengths around the padding boundary.", "quantifier": "every byte message shorter than 2^61 bytes", "why_tests_cant": "known-answer tests touch finitely many lengths and contents", "anchors": ["src/nx_hash_sha256.c:nx_hash_sha256", "src/nx_hash_sha256.c:nx_hash_sha256_process_block"]}
{"id": "C11", "title": "Multi-part SHA-256 depends only on the concatenation", "statement": "nx_hash_sha256_multi over any list of buffers equals nx_hash_sha256 of their concatenation, independent of how the message is split, and reads only the given buffers.", "quantifier": "every split of every message, empty parts included", "why_tests_cant": "number of splits is exponential in the message length", "anchors": ["src/nx_hash_sha256.c:nx_hash_sha256_multi", "src/nx_string.c:nx_memncpy_multi"]}
{"id": "C12", "title": "Bit counting is exact", "statement": "nx_count_bits_uint32/64 style population counts return the number of one bits of their argument.", "quantifier": "all 2^32 / 2^64 arguments", "why_tests_cant": "2^64 inputs cannot be enumerated", "anchors": ["src/nx_bit_ops.c"]}
{"id": "C13", "title": "Big-endian split and compose are inverse; rotation is a rotation", "statement": "Splitting a 32/64-bit word into big-endian bytes and composing them gives the word back and vice versa; the 32-bit rotate moves bit i to bit (i-n) mod 32 for 0<n<32.", "quantifier": "all words, all byte tuples, all rotation amounts", "why_tests_cant": "infinitely many inputs; a test samples a few of them", "anchors": ["include/virg/nexus/nx_bit_ops.h"]}
{"id": "C14", "title": "Bit arrays are independent bits", "statement": "After any sequence of set/clear operations on a bit array, reading position i is non-zero iff the last operation on i was a set; other positions are unaffected and only the allocated words are accessed.", "quantifier": "every size, every history", "why_tests_cant": "unbounded histories", "anchors": ["include/virg/nexus/nx_bit_ops.h:nx_bit_array"]}
{"id": "C15", "title": "Memory blocks never lose, duplicate or overrun memory", "statement": "For any history of reserve, resize, wrap, release, swap, copy and free calls on a set of memory blocks (user pointers being handed over at most once), every owned allocation is freed exactly once, no freed memory is used, size never exceeds capacity, and reserve/resize keep the first min(old,new) size bytes.", "quantifier": "every finite history over any number of blocks", "why_tests_cant": "ownership depends on the whole history", "anchors": ["src/nx_mem_block.c"]}
{"id": "C16", "title": "Lexer position tracking", "statement": "After any number of consume calls the lexer's current character is the input character at the number of successful consumptions, end of input is sticky, and the line number equals one plus the number of newlines consumed.", "quantifier": "every input text, every number of calls", "why_tests_cant": "infinitely many inputs; a test samples a few of them", "anchors": ["src/nx_lexer.c:nx_lexer_consume"]}
{"id": "C17", "title": "A failed token match consumes nothing", "statement": "nx_lexer_match either consumes exactly the literal and returns true, or returns false and leaves the lexer (position, line, column, current character) unchanged; likewise for the number and string matchers.", "quantifier": "every lexer state reachable on every input, every literal", "why_tests_cant": "infinitely many inputs; a test samples a few of them", "anchors": ["src/nx_lexer.c:nx_lexer_match"]}
{"id": "C18", "title": "Number tokens are exactly the JSON number grammar", "statement": "The number matcher of the lexer succeeds iff the remaining input starts with a JSON number, and then consumes the longest prefix allowed by the grammar.", "quantifier": "every input text", "why_tests_cant": "infinite language", "anchors": ["src/nx_lexer.c:NUMBER"]}
{"id": "C19", "title": "Quoted-string tokens", "statement": "The quoted string matcher accepts exactly the texts consisting of a quote, characters or valid backslash escapes, and a closing quote, and consumes up to the first unescaped quote.", "quantifier": "every input text", "why_tests_cant": "infinite language", "anchors": ["src/nx_lexer.c:QUOTED_STRING"]}
{"id": "C20", "title": "JSON trees survive printing and parsing", "statement": "Parsing the text printed for a JSON tree (compact or pretty-printed) yields the same tree.", "quantifier": "every JSON tree of any depth and width, every string content, every number text of the grammar", "why_tests_cant": "infinitely many trees", "anchors": ["src/nx_json_tree.c:nx_json_tree_fprint", "src/nx_json_parser.c", "src/nx_json_lexer.c"]}
{"id": "C21", "title": "JSON literals keep their meaning", "statement": "Parsing a document containing true, false or null produces nodes that report the corresponding kind.", "quantifier": "every document", "why_tests_cant": "quantifies over all documents containing the literals", "anchors": ["src/nx_json_tree.c:nx_json_node_new_false", "src/nx_json_tree.c:nx_json_node_new_null"]}
{"id": "C22", "title": "JSON parsing accepts only complete documents", "statement": "nx_json_tree_from_string succeeds only on texts that are one JSON array or object surrounded by white space; anything else, including trailing text, is reported as an error.", "quantifier": "every input text", "why_tests_cant": "all malformed texts", "anchors": ["src/nx_json_parser.c"]}
{"id": "C23", "title": "JSON parsing always terminates with a tree or a reported error", "statement": "On every input the JSON reader stops, reading the text once from left to right, with either a tree or a fatal error.", "quantifier": "every input text, nesting unbounded", "why_tests_cant": "termination on all inputs", "anchors": ["src/nx_json_parser.c", "src/nx_json_lexer.c"]}
{"id": "C24", "title": "JSON containers behave as sequences", "statement": "Appending children with the array/object add functions yields a container whose length is the number of added children, whose i-th element is the i-th added one, and in which looking up a key returns the value added first under that key, and NULL when the key is absent.", "quantifier": "every sequence of additions, every index and key", "why_tests_cant": "infinitely many inputs; a test samples a few of them", "anchors": ["src/nx_json_tree.c:nx_json_array_add", "src/nx_json_tree.c:nx_json_object_get"]}
{"id": "C25", "title": "JSON bundling round trip", "statement": "Unbundling what was bundled returns the original value for booleans, integers, sizes, unsigned chars, strings and arrays of these.", "quantifier": "every value of the type", "why_tests_cant": "all machine integers and strings", "anchors": ["src/nx_json_bundle.c"]}
{"id": "C26", "title": "CSV records are recovered from written text", "statement": "Writing rows of fields quoted with nx_fputs_double_quoted, separated by commas and newlines, and parsing the text with the CSV parser recovers the number of rows, the number of columns and every field byte for byte.", "quantifier": "every rectangular table with at least one row and column of NUL-free strings", "why_tests_cant": "infinitely many tables; quoting interacts with commas, quotes and newlines", "anchors": ["src/nx_csv_lexer.c", "src/nx_csv_parser.c"]}
{"id": "C27", "title": "CSV rejects ragged tables", "statement": "If two records of a CSV text have different numbers of fields the parser reports an error; if parsing succeeds all records have the same number of fields.", "quantifier": "every input text", "why_tests_cant": "infinitely many inputs; a test samples a few of them", "anchors": ["src/nx_csv_parser.c:parse_csv"]}
{"id": "C28", "title": "Column type inference is the least common type", "statement": "The type chosen for a CSV column is the join of the types of its non-missing cells in the order int < double < string, bool < string; it does not depend on the order or repetition of rows.", "quantifier": "every list of cells", "why_tests_cant": "all orders of all columns", "anchors": ["src/nx_csv_parser.c:pick_larger_type"]}
{"id": "C29", "title": "Integer CSV cells keep their value", "statement": "A cell recognised as an integer is stored with the value that made it recognised as an integer.", "quantifier": "every integer cell text (decimal, octal, hexadecimal)", "why_tests_cant": "all integer literals", "anchors": ["src/nx_csv_parser.c"]}
{"id": "C30", "title": "Data frame cells behave as a table", "statement": "For any history of column additions, row additions and cell updates, reading a cell returns the last value stored there, or reports missing when nothing or NA was stored; other cells are unaffected.", "quantifier": "every history", "why_tests_cant": "unbounded histories", "anchors": ["src/nx_data_frame.c"]}
{"id": "C31", "title": "Factor columns keep the level of every row", "statement": "Storing a label in a factor column and reading it back yields the same label; levels stay distinct and never change their code once assigned; converting a string column to a factor keeps every cell's text.", "quantifier": "every history of stores and conversions", "why_tests_cant": "unbounded histories", "anchors": ["src/nx_data_frame.c:nx_data_frame_make_factor", "src/nx_data_frame.c:value_to_factor"]}
{"id": "C32", "title": "Data frame CSV save and load round trip", "statement": "Saving a data frame with nx_data_frame_fprintf and loading the text yields a frame with the same labels, size and cell contents.", "quantifier": "every data frame", "why_tests_cant": "infinitely many frames and string contents", "anchors": ["src/nx_data_frame.c:nx_data_frame_fprintf", "src/nx_data_frame.c:nx_data_frame_load_csv_stream"]}
{"id": "C33", "title": "Loading CSV with strings as factors terminates", "statement": "nx_data_frame_load_csv with strings_as_factors set finishes and turns every string column into a factor.", "quantifier": "every CSV text", "why_tests_cant": "non-termination cannot be observed by a finite test run", "anchors": ["src/nx_data_frame.c:nx_data_frame_load_csv_stream"]}
{"id": "C34", "title": "Option names are unique and lookups are exact", "statement": "After any sequence of option declarations, looking up a name finds the option declared with that (long or short) name and nothing otherwise; declaring a taken name aborts.", "quantifier": "every set of declarations, every name", "why_tests_cant": "depends on hash collisions among arbitrary names", "anchors": ["src/nx_options.c"]}
{"id": "C35", "title": "Command line parsing meets its specification", "statement": "After a successful nx_options_set_from_args every given option holds the value of its last occurrence, every option not given holds its default, required options were all given, and remaining arguments are collected in order; parsing the same arguments again gives the same state whatever was parsed before.", "quantifier": "every option table and argument vector, every earlier parse", "why_tests_cant": "unbounded argument vectors and histories", "anchors": ["src/nx_options.c:nx_options_set_from_args"]}
{"id": "C36", "title": "Graph representations agree with the mathematical graph", "statement": "After any sequence of edge insertions the adjacency matrix and the adjacency list report the same edges and weights as the set of inserted edges (later insertions updating the weight), are symmetric, have no self loops, and report the number of distinct edges.", "quantifier": "every number of vertices and every insertion sequence", "why_tests_cant": "unbounded histories", "anchors": ["src/nx_graph.c"]}
{"id": "C37", "title": "In-place transpose transposes", "statement": "nx_dmat_transpose on an m by n matrix leaves the n by m matrix whose entry (c,r) is the former entry (r,c); transposing twice restores the matrix.", "quantifier": "all sizes m, n and all contents", "why_tests_cant": "cycle structure differs for every size", "anchors": ["include/virg/nexus/nx_mat.h:nx_dmat_transpose"]}
{"id": "C38", "title": "Filtering equals its mathematical definition", "statement": "The in-place symmetric convolution and the sliding box sum return for each sample the defining (windowed) sum over the original samples, and the border fill functions produce zero/repeated/mirrored extensions without access outside the buffer.", "quantifier": "all lengths, kernel sizes and contents (exact arithmetic)", "why_tests_cant": "in-place overwriting errors depend on sizes and data", "anchors": ["src/nx_filter.c"]}
{"id": "C39", "title": "Five-number statistics are order statistics", "statement": "The statistics routines return minimum, maximum, median and quartiles of the data as defined on the sorted sample, independent of the input order; the mean is the sum divided by the number of elements and the standard deviation the root of the sum of squared distances from the mean divided by one less than that number, independent of the order too, zero only for equal elements.", "quantifier": "every non-empty sample, every permutation", "why_tests_cant": "all samples and orders", "anchors": ["src/nx_statistics.c"]}
{"id": "C40", "title": "USAC returns its best hypothesis", "statement": "Whatever samples are drawn, the score returned by the robust estimator is the maximum of the scores of all accepted hypotheses, belongs to the returned model, and never decreases during the run.", "quantifier": "every sampler, model generator, scorer and termination criterion", "why_tests_cant": "randomised callbacks", "anchors": ["src/nx_usac.c"]}
{"id": "C41", "title": "Keypoint arrays survive serialization", "statement": "Keypoints written to a stream and read back are field-wise equal; reading a truncated stream returns exactly the number of complete keypoints.", "quantifier": "every list of keypoints and every truncation point", "why_tests_cant": "infinitely many inputs; a test samples a few of them", "anchors": ["src/nx_keypoint.c"]}
{"id": "C42", "title": "FAST non-maximum suppression keeps exactly the local maxima", "statement": "For corners in raster order the suppression returns, in order, exactly those corners none of whose eight neighbouring corners has a score greater or equal, cut to the requested maximum number; it never reads outside the corner list.", "quantifier": "every raster-ordered list of corners, every limit", "why_tests_cant": "pointer-walking algorithm over arbitrary layouts", "anchors": ["src/fast/fast_nonmax.c:fast_nonmax_suppression"]}
{"id": "C43", "title": "FAST-9 decision tree equals the segment test", "statement": "fast9_detect reports a pixel iff at least nine contiguous pixels of its 16-pixel circle are all brighter than centre plus threshold or all darker than centre minus threshold, reporting corners in raster order.", "quantifier": "every image, stride and threshold", "why_tests_cant": "3^16 circle patterns per pixel, unbounded images", "anchors": ["src/fast/fast_9.c:fast9_detect"]}
{"id": "C44", "title": "FAST score is the largest passing threshold", "statement": "fast9_score assigns to each corner the largest threshold for which it is still a corner.", "quantifier": "every circle pattern and starting threshold", "why_tests_cant": "binary search over a generated tree", "anchors": ["src/fast/fast_9.c:fast9_corner_score"]}
{"id": "C45", "title": "BRIEF descriptor distance is the Hamming distance", "statement": "nx_brief_extractor_descriptor_distance equals the number of differing bits for every descriptor length, hence is a metric.", "quantifier": "every pair of descriptors of every length", "why_tests_cant": "infinitely many inputs; a test samples a few of them", "anchors": ["src/nx_brief_extractor.c:nx_brief_extractor_descriptor_distance"]}
{"id": "C46", "title": "BRIEF extractor serialization round trip", "statement": "An extractor written to a stream and read back has the same radius, number of octets, test offsets and pyramid offset.", "quantifier": "every extractor", "why_tests_cant": "infinitely many inputs; a test samples a few of them", "anchors": ["src/nx_brief_extractor.c:nx_brief_extractor_read", "src/nx_brief_extractor.c:nx_brief_extractor_write"]}
{"id": "C47", "title": "PNM images survive saving and loading", "statement": "Loading a saved 8-bit image gives the same width, height and pixels for grayscale images, and the same colour with opaque alpha for colour images, for both loaders.", "quantifier": "every image size and pixel content", "why_tests_cant": "pixel bytes can imitate header white space and comments", "anchors": ["src/nx_image_io_pnm.c"]}
{"id": "C48", "title": "Image resampling stays inside the images", "statement": "Downsampling and upsampling read and write only pixels of the source and destination and write every destination pixel; upsampling followed by plain downsampling restores the image.", "quantifier": "every image size", "why_tests_cant": "infinitely many inputs; a test samples a few of them", "anchors": ["src/nx_image.c:nx_image_downsample", "src/nx_image.c:nx_image_upsample"]}
{"id": "C49", "title": "Float to 8-bit conversion saturates", "statement": "Converting a float image to 8 bits maps each value to the nearest representable value, saturating at 0 and 255.", "quantifier": "every pixel value", "why_tests_cant": "infinitely many inputs; a test samples a few of them", "anchors": ["src/nx_image.c:nx_image_convert_dtype"]}
{"id": "C50", "title": "Line reading returns each line once", "statement": "Repeated nx_getline calls return the successive lines of the stream including their newline, report their lengths, never write outside the buffer, and signal the end of the stream.", "quantifier": "every stream content, every initial buffer", "why_tests_cant": "infinitely many inputs; a test samples a few of them", "anchors": ["src/nx_io.c:nx_getline"]}
{"id": "C51", "title": "Adaptive FAST threshold stays in range", "statement": "Starting from a threshold in [5,250] any number of adaptations keeps the threshold in [5,250], raising it only when detections reach the upper limit and lowering it only when they are too few.", "quantifier": "every history of detection counts", "why_tests_cant": "unbounded histories", "anchors": ["src/nx_fast_detector.c:nx_fast_detector_adapt_threshold"]}
{"id": "C52", "title": "Index of maximum", "statement": "The vector argmax routines return the index of the first maximal element.", "quantifier": "every non-empty vector of representable values", "why_tests_cant": "infinitely many inputs; a test samples a few of them", "anchors": ["include/virg/nexus/nx_vec.h"]}
{"id": "C53", "title": "BRIEF tests stay inside the image", "statement": "If the limits of an extractor are up to date and a point passes nx_brief_extractor_check_point_pyr, then nx_brief_extractor_compute_pyr reads only pixels inside the image, and every bit of the descriptor, most significant first, is the outcome of the corresponding intensity comparison.", "quantifier": "every extractor, image, point and monotone pyramid scaling", "why_tests_cant": "out-of-bounds reads depend on the random offsets and the geometry", "anchors": ["src/nx_brief_extractor.c"]}
{"id": "C54", "title": "Smoothing kernels are normalised", "statement": "nx_kernel_sym_gaussian yields a kernel whose two-sided sum is one and whose entries keep the ratios of the Gaussian values, nx_kernel_size_gaussian an odd size of at least 3, and convolving a constant signal with such a kernel leaves it unchanged.", "quantifier": "every kernel length, every non-negative weight function with positive centre, every signal length", "why_tests_cant": "unbounded lengths and weights; the sum property is about all of them", "anchors": ["src/nx_filter.c:nx_kernel_sym_gaussian", "src/nx_filter.c:nx_kernel_size_gaussian", "src/nx_filter.c:nx_convolve_sym"]}
{"id": "C55", "title": "Gray values of colours", "statement": "The gray value of an 8-bit colour is the mean of red, green and blue with weights 0.30, 0.59 and 0.11 rounded down; in particular a gray colour keeps its value, so an image converted from gray to colour and back is unchanged.", "quantifier": "every triple of channel values", "why_tests_cant": "the float rounding of 2^24 colours; the failing values are irregular", "anchors": ["include/virg/nexus/nx_colorspace.h:nx_rgb_to_gray_uc", "src/nx_image_io_pnm.c:read_pnm_data"]}
{"id": "C56", "title": "Keypoints as JSON", "statement": "A keypoint bundled as a JSON object and read back, alone or in an array and after further construction calls, has the same position, level and id, and its floating point fields are those their printed text denotes.", "quantifier": "every keypoint, every array of keypoints, every earlier and later construction call that leaves the bundle alone", "why_tests_cant": "the 64-bit id passes through an int: only ids above 2^31 fail", "anchors": ["src/nx_json_bundle.c:nx_json_bundle_keypoint", "src/nx_json_bundle.c:nx_json_unbundle_keypoint"]}
{"id": "C57", "title": "Small matrix algebra", "statement": "The 3x3, 4x4 and general matrix routines compute the matrix product, determinant, two-sided inverse (zero matrix and return value 0 exactly for singular matrices), matrix-vector product, cross and scalar product and normalisation of vectors, for matrices stored by columns with any leading dimension; the general product touches nothing but the elements of its result.", "quantifier": "every matrix over every field (exact arithmetic), all sizes and leading dimensions", "why_tests_cant": "index mix-ups in unrolled code can cancel on symmetric or sparse samples; the inverse identity ranges over all nonsingular matrices", "anchors": ["include/virg/nexus/nx_mat234.h", "include/virg/nexus/nx_vec234.h", "include/virg/nexus/nx_mat.h:nx_dmat_mul", "include/virg/nexus/nx_vec234.h:nx_svec4h_to_euclidean", "include/virg/nexus/nx_vec.h:nx_dvec_norm", "include/virg/nexus/nx_vec.h:nx_dvec_axpy", "include/virg/nexus/nx_mat234.h:nx_sdmat3_inv"]}
{"id": "C58", "title": "Quaternions represent rotations", "statement": "Quaternion operations are those of Hamilton's algebra; a unit quaternion's matrix is a rotation, rotating a vector is q v q* and multiplication with that matrix, products compose rotations, from_R and to_R are inverse to each other up to the sign of the quaternion, and from_axis_angle agrees with the axis-angle matrix.", "quantifier": "every quaternion, vector and rotation matrix of real numbers", "why_tests_cant": "from_R has four branches chosen by the diagonal; a sign error in one branch shows only for some rotations", "anchors": ["src/nx_quaternion.c", "include/virg/nexus/nx_quaternion.h", "include/virg/nexus/nx_quaternion.h:nx_quaternion_to_Rt"]}
{"id": "C59", "title": "Rotation matrices", "statement": "The Euler angle routines are the products of elementary rotations in the order their names say and the axis-angle routine rotates about the given nonzero axis by Rodrigues' formula; all results are orthogonal with determinant one.", "quantifier": "all real angles and nonzero axes", "why_tests_cant": "infinitely many angles; order and sign errors vanish at special angles", "anchors": ["src/nx_rotation_3d.c", "include/virg/nexus/nx_rotation_3d.h:nx_rotation_3d_invert"]}
{"id": "C60", "title": "Plane transformations", "statement": "The similarity and affine routines compose translations, rotations, scale and tilt in the documented order. The perspective routine (nx_transform_2d_fill_perspective, nx_homography_estimate_unit) takes the four corners to the corners of the unit square, and is the only transformation up to a factor that does, whenever no three corners are on a line and the returned value is not zero; for such corners the returned value is zero exactly if the transformation sends the origin to infinity, so that it does not tell whether the corners are degenerate.", "quantifier": "all parameters and all four points over any field (exact arithmetic)", "why_tests_cant": "a closed formula with more than two hundred intermediate terms of degree up to six in eight variables; samples do not exclude a wrong coefficient of a term that vanishes for them", "anchors": ["src/nx_transform_2d.c", "src/nx_homography.c:nx_homography_estimate_unit"]}
{"id": "C61", "title": "Homography from four correspondences", "statement": "Point transfer computes the image of the point, agrees with products and inverses of matrices; whenever nx_homography_estimate_4pt returns a nonzero value, the matrix takes each of the four points to its correspondence and is regular.", "quantifier": "all matrices, all correspondences and index choices, exact arithmetic", "why_tests_cant": "degenerate configurations have measure zero; a missing check on the source points is not met by random samples", "anchors": ["src/nx_homography.c:nx_homography_estimate_4pt", "include/virg/nexus/nx_homography.h:nx_homography_transfer_fwd"]}
{"id": "C62", "title": "Homography by direct linear transformation", "statement": "For four or more correspondences nx_homography_estimate_dlt yields the unit norm matrix with the least sum of algebraic residuals; if the correspondences fit a regular homography exactly and four of the points are in general position, that homography is found up to a factor; the inlier variant estimates from the marked correspondences only.", "quantifier": "all lists of correspondences of real points and every singular value decomposition that meets the contract", "why_tests_cant": "minimality is a statement about all matrices; the uninitialised singular value for four points usually goes unnoticed", "anchors": ["src/nx_homography.c:nx_homography_estimate_dlt", "src/nx_homography.c:nx_homography_estimate_dlt_inliers", "src/nx_homography.c:nx_homography_svd_solve"]}
{"id": "C63", "title": "Inliers and transfer errors of homographies", "statement": "Marking inliers changes only the marks, sets them exactly for the correspondences whose image is nearer than the tolerance and returns their number; the transfer error is the mean distance over the inliers, zero exactly if all inliers fit and undefined without inliers; the symmetric error is invariant under exchange of the points and inversion of the matrix.", "quantifier": "all matrices, lists of correspondences and tolerances", "why_tests_cant": "universally quantified over lists and matrices, including points that are sent to infinity", "anchors": ["src/nx_homography.c:nx_homography_mark_inliers", "src/nx_homography.c:nx_homography_transfer_error_sym", "include/virg/nexus/nx_point_match_2d.h"]}
{"id": "C64", "title": "Plausibility check of homographies", "statement": "nx_homography_check accepts a homography exactly if the image of the square around the origin is finite, not mirrored, and the absolute cosine of the angle between its diagonals is at most the bound, whatever the scale of the image.", "quantifier": "all matrices and bounds", "why_tests_cant": "the normalisation by the square of the length is invisible for images of about unit size", "anchors": ["src/nx_homography.c:nx_homography_check"]}
{"id": "C65", "title": "Normalisation of matches is undone exactly", "statement": "Normalising the matches moves each of the two point sets to mean zero and mean distance one; denormalising the matches restores the points, and a homography or fundamental matrix estimated on the normalised matches becomes, after denormalisation, the one that relates the original points; a tolerance divided by the scale of the second points marks the same inliers.", "quantifier": "all matches, statistics with nonzero scales, homographies and fundamental matrices", "why_tests_cant": "quantified over matrices and point lists; mixing up the two scales or the order of the factors is invisible for symmetric data", "anchors": ["src/nx_point_match_2d_stats.c", "src/nx_homography.c:nx_homography_estimate_norm_ransac"]}
{"id": "C66", "title": "Fundamental matrix: distances, inliers, rank, least squares", "statement": "The epipolar distance is the distance of the second point from the epipolar line of the first; marking sets the marks exactly for the matches nearer than the tolerance and returns their number; the rank step yields the nearest singular matrix; before it, the estimate minimises the sum of squared epipolar forms over unit matrices; exact matches are reproduced exactly.", "quantifier": "all matrices, matches and tolerances, any decomposition that fulfils the contract", "why_tests_cant": "minimality over a continuum of matrices", "anchors": ["src/nx_epipolar.c:nx_fundamental_mark_inliers", "src/nx_epipolar.c:nx_fundamental_fix_rank", "src/nx_epipolar.c:nx_fundamental_estimate"]}
{"id": "C67", "title": "Essential matrix from motion and back", "statement": "The essential matrix of R and t is the cross product matrix of t times R, and is K'^T F K for calibrated cameras; the decomposition yields rotations and unit vectors, and its four pairs are exactly the motions whose essential matrix is the given one up to sign and scale.", "quantifier": "all rotations, vectors, intrinsic matrices; any decomposition that fulfils the contract", "why_tests_cant": "completeness of the four solutions is quantified over all motions", "anchors": ["src/nx_epipolar.c:nx_essential_from_fundamental", "src/nx_epipolar.c:nx_essential_from_Rt", "src/nx_epipolar.c:nx_essential_decompose_to_Rt"]}
{"id": "C68", "title": "Choice of the motion by the signs of the depths", "statement": "The two signs computed for a match are the signs of its depths in the two cameras; the chosen pair is the first one with the largest sum of signs; from the essential matrix of a motion and matches of points in front of both cameras, decomposition and choice recover exactly that motion.", "quantifier": "all motions, any positive number of matches", "why_tests_cant": "quantified over all motions and scenes, including points that are at infinity for a wrong candidate", "anchors": ["src/nx_epipolar.c:nx_epipolar_get_z_sign_sum", "src/nx_epipolar.c:nx_epipolar_pick_best_Rt"]}
{"id": "C69", "title": "Random choice of matches", "statement": "The index computed from a random number is smaller than the number of candidates, so that the list is not read outside, and the four (eight) indices chosen for an estimate are different.", "quantifier": "all 32 bit random numbers, all numbers of candidates up to 2^24, all streams of random numbers", "why_tests_cant": "only 128 of the 2^32 numbers round up to one; equal indices appear rarely and only for some pairs of positions", "anchors": ["src/nx_uniform_sampler.c:nx_uniform_sampler_sample_s", "src/nx_homography.c:nx_select_prosac_candidates", "src/nx_epipolar.c:nx_select_prosac_candidates", "src/nx_usac_homography.c:nx_usac_homography_sampling"]}
{"id": "C70", "title": "The random numbers are those of SFMT19937", "statement": "From a seed, the generator gives the numbers of the published recursion on 128 bit words, in order, whether drawn as 32 bit numbers, as 64 bit numbers or by filling arrays; the certification makes the parity odd by changing at most one bit, and the state is never all zero.", "quantifier": "all seeds, all states, any number of calls, all array sizes", "why_tests_cant": "the published test vectors cover a fixed prefix of a few seeds; the state has 19968 bits", "anchors": ["src/SFMT/SFMT.c:sfmt_gen_rand_all", "src/SFMT/SFMT.c:gen_rand_array", "src/SFMT/SFMT.c:sfmt_init_gen_rand", "src/SFMT/SFMT.c:period_certification", "src/SFMT/SFMT.h:sfmt_genrand_uint32", "src/SFMT/SFMT.h:sfmt_genrand_uint64", "src/SFMT/SFMT-common.h:do_recursion"]}
{"id": "C71", "title": "Robust estimation of a homography", "statement": "When the estimation from contaminated matches returns, the list holds the given matches in some order, a match is marked iff the returned homography takes its point closer than the tolerance to its image, the number of marks is returned (or zero if the homography is implausible), the hypothesis that was refined had the most inliers of all that were tried, and if all matches are exact images under one homography and some hypothesis has them all as inliers this homography is returned; the same holds in the original coordinates for the variant that normalises the coordinates.", "quantifier": "all match lists, all tolerances and iteration limits, all streams of random numbers, all singular value decompositions", "why_tests_cant": "the outcome depends on the random selections; a test fixes a stream and a few matches", "anchors": ["src/nx_homography.c:nx_homography_estimate_ransac", "src/nx_homography.c:nx_homography_estimate_norm_ransac", "src/nx_homography.c:nx_homography_mark_inliers"]}
{"id": "C72", "title": "Robust estimation of a fundamental matrix", "statement": "When the estimation from contaminated matches returns, the list holds the given matches in some order, a match is marked iff its second point is closer than the tolerance to the epipolar line of its first point, the number of marks is returned, the hypothesis that was refined had the most inliers of all that were tried, every hypothesis is the eight point estimate of some matches, and if the exact epipolar constraints of all matches determine the matrix and some hypothesis has them all as inliers this matrix is returned up to scale; the same holds in the original coordinates for the variant that normalises the coordinates.", "quantifier": "all match lists, all tolerances and iteration limits, all streams of random numbers, all singular value decompositions", "why_tests_cant": "the outcome depends on the random selections; a test fixes a stream and a few matches", "anchors": ["src/nx_epipolar.c:nx_fundamental_estimate_ransac", "src/nx_epipolar.c:nx_fundamental_estimate_norm_ransac", "src/nx_epipolar.c:nx_fundamental_mark_inliers"]}
{"id": "C73", "title": "Pinhole cameras: projection and triangulation", "statement": "The projection matrix made of intrinsic parameters, rotation and translation takes a point X to K(RX+t); projecting divides by the depth, and returns the smallest absolute depth; the images in two cameras satisfy the epipolar constraint; triangulation gives for each marked match the point of smallest algebraic error with the position of the match, writes no more points than the caller has room for, and gives back the original points if the matches are exact.", "quantifier": "all camera matrices, all points, all match lists, all decompositions", "why_tests_cant": "tests use a few random scenes, all matches marked and arrays of the right size", "anchors": ["src/nx_pinhole.c:nx_pinhole_projection_from_krt", "src/nx_pinhole.c:nx_pinhole_project", "src/nx_pinhole.c:nx_pinhole_project_h", "src/nx_pinhole.c:nx_pinhole_triangulate"]}
{"id": "C74", "title": "Sampling of normal variates", "statement": "A call for n samples writes exactly the first n places, with the values of the polar method for the first points of the open unit disc that the uniform numbers give, in order and without using more numbers than needed; every sample is a number; for a point uniformly distributed on the disc the two samples are independent and normally distributed with the given mean and standard deviation; the samplers that are made are freed exactly once.", "quantifier": "all streams of uniform numbers, all n, all means and standard deviations", "why_tests_cant": "a test checks moments of some thousand samples; the point that gives no number has a probability of about 1e-15", "anchors": ["src/nx_gaussian_sampler.c:nx_gaussian_sampler_sample_s", "src/nx_gaussian_sampler.c:nx_gaussian_sampler_sample_d", "src/nx_gaussian_sampler.c:nx_gaussian_sampler_new", "src/nx_gaussian_sampler.c:nx_gaussian_sampler_free"]}
{"id": "C75", "title": "Image derivatives", "statement": "The horizontal and the vertical derivative of an image have at every pixel the value of the difference of the two neighbours, where a row or column is extended by one pixel along the straight line through its two last pixels; so the derivative of a linear ramp is the same everywhere. Nothing is read outside of the image.", "quantifier": "all images, sizes and strides, 8-bit and float", "why_tests_cant": "tests would use images without padding and far larger than one pixel", "anchors": ["src/nx_image.c:nx_image_deriv_x_uc", "src/nx_image.c:nx_image_deriv_x_f32", "src/nx_image.c:nx_image_deriv_y_uc", "src/nx_image.c:nx_image_deriv_y_f32"]}
{"id": "C76", "title": "Image arithmetic and normalisation", "statement": "The difference of two images is the difference of their pixels on the common part; scaling and shifting changes every sample of every channel and nothing else, for 8-bit samples truncated and limited to 0 to 255; normalisation takes the least sample to 0 and the greatest to 1 and the others in proportion, in symmetric mode 0 to 1/2.", "quantifier": "all images, strides, numbers of channels, coefficients", "why_tests_cant": "the result of normalisation depends on the order of the samples; tests try few orders", "anchors": ["src/nx_image.c:nx_image_subtract", "src/nx_image.c:nx_image_axpy", "src/nx_image.c:nx_image_normalize_to_zero_one"]}
{"id": "C77", "title": "Smoothing and box filters for images", "statement": "Every pixel of a filtered image is the mean of the pixels of the rectangle around it, with equal weights or with those of normalised Gaussian kernels, where the outermost pixels are repeated outside; in place as well as for a different destination, with any stride, and with every filter buffer that has room for a line and its borders. A smoothed image stays between the least and the greatest sample; 8-bit samples never overflow.", "quantifier": "all images, strides, radii, kernel sizes, buffers", "why_tests_cant": "the buffer is used for all lines and the destination may be the source; a test sees few sizes and cannot check all pixels against a definition", "anchors": ["src/nx_image.c:nx_image_smooth", "src/nx_image.c:nx_image_filter_box_x", "src/nx_image.c:nx_image_filter_box_y", "src/nx_image.c:nx_image_filter_box", "src/nx_image.c:nx_image_filter_buffer_alloc"]}
{"id": "C78", "title": "Warping and rotating images", "statement": "A pixel of a warped image whose position in the source lies inside is the bilinear interpolation of the four pixels around it, rounded down, and so between the least and the greatest of them; at whole positions it is the pixel itself. Outside of the source it is the background, the continuation of the edges or the mirrored image, by mode. The source is never read out of bounds. Rotation by 45 degrees is rigid and maps the centre to the centre.", "quantifier": "all images, strides, transformations, modes", "why_tests_cant": "positions are real numbers and the reads out of bounds depend on them; a test sees few transformations", "anchors": ["src/nx_image_warp.c:nx_image_warp_affine_bilinear", "src/nx_image_warp.c:nx_image_rotate45", "src/nx_image_warp.c:nx_image_rotate45_uc", "src/nx_image_warp.c:nx_image_rotate45_f32"]}
{"id": "C79", "title": "Scaling of images", "statement": "A scaled image has the size of the source times the scale, rounded down, and every pixel is the bilinear interpolation of the source at its position divided by the scale; the source is never read out of bounds.", "quantifier": "all images, strides and scales", "why_tests_cant": "the reads out of bounds depend on rounding at the last row and column, for real scales", "anchors": ["src/nx_image.c:nx_image_scale", "src/nx_image.c:nx_image_scale_uc", "src/nx_image.c:nx_image_scale_f32"]}
{"id": "C80", "title": "Memory of images", "statement": "In every sequence of calls that create, resize, copy, wrap, swap, clear, release and free images, all bytes of all pixels of all images lie in live memory and no two of them share a byte; a copy shows the same picture as its source, swapped images are exchanged, wrapped memory is shown in place, resizing to the shape an image already has keeps its pixels, and no call changes a picture it does not name. After all images are freed the library owns no memory.", "quantifier": "all histories of calls, sizes, strides, image and sample types", "why_tests_cant": "histories and sizes are unbounded, and memory errors need not show", "anchors": ["src/nx_image.c:nx_image_alloc", "src/nx_image.c:nx_image_new", "src/nx_image.c:nx_image_new_like", "src/nx_image.c:nx_image_resize", "src/nx_image.c:nx_image_resize_like", "src/nx_image.c:nx_image_release", "src/nx_image.c:nx_image_copy", "src/nx_image.c:nx_image_copy0", "src/nx_image.c:nx_image_wrap", "src/nx_image.c:nx_image_swap", "src/nx_image.c:nx_image_set_zero", "src/nx_image.c:nx_image_free"]}
{"id": "C81", "title": "Image pyramids", "statement": "Building a pyramid gives the number of levels that was set; level i has the scale, sigma and size that the settings say; level zero is the given image smoothed to the sigma of the builder, and every other level is computed from the one before by smoothing and reducing as its kind says. The result does not depend on what the pyramid and the builder held before. The sigma of a level is the smoothing its image has.", "quantifier": "all images, numbers of levels, octaves and steps, factors, sigmas and previous contents", "why_tests_cant": "levels, octaves and sizes are unbounded, and images of pyramids are not compared with what they should be", "anchors": ["src/nx_image_pyr_builder.c:nx_image_pyr_builder_set_fast", "src/nx_image_pyr_builder.c:nx_image_pyr_builder_set_fine", "src/nx_image_pyr_builder.c:nx_image_pyr_builder_set_scaled", "src/nx_image_pyr_builder.c:nx_image_pyr_builder_build", "src/nx_image_pyr_builder.c:nx_image_pyr_builder_update", "src/nx_image_pyr_builder.c:nx_image_pyr_builder_init_levels", "src/nx_image_pyr_builder.c:_nx_image_pyr_builder_update_fast", "src/nx_image_pyr_builder.c:_nx_image_pyr_builder_update_fine", "src/nx_image_pyr_builder.c:_nx_image_pyr_builder_update_scaled", "src/nx_image_pyr.c:nx_image_pyr_alloc_levels", "src/nx_image_pyr.c:nx_image_pyr_create_level", "src/nx_image_pyr.c:nx_image_pyr_copy_to_level0"]}
{"id": "C82", "title": "Harris corners", "statement": "The detector reports exactly the positions, two pixels from the border, whose score is above the threshold and above its eight neighbours, in reading order and at most as many as asked for, from pyramids the coarsest level first. The score is the determinant minus k times the squared trace of the matrix of Gaussian means of the products of the derivatives. Straight edges, flat images and detectors without a window give no corners. Adapting the threshold raises it exactly for too many keypoints, lowers it for too few, and keeps it positive.", "quantifier": "all images, windows, factors, thresholds, numbers of keypoints, pyramids and previous contents", "why_tests_cant": "the set of all corners of all images and the order of reports cannot be enumerated by tests", "anchors": ["src/nx_harris_detector.c:nx_harris_deriv_images", "src/nx_harris_detector.c:nx_harris_score_image", "src/nx_harris_detector.c:nx_harris_detect_keypoints", "src/vg_harris_detector.cc:detect", "src/vg_harris_detector.cc:detect_pyr", "src/vg_harris_detector.cc:adapt_threshold"]}
{"id": "C83", "title": "Matching of descriptors", "statement": "With a threshold between 0 and 1, matching reports exactly the pairs in which the second keypoint is nearer to the first than the squared threshold times the distance of every other candidate, in the order of the first keypoints, with the squared distance as cost; a match is the only one of its keypoint, a higher threshold keeps all matches, and candidates that occur twice are not matched. With other thresholds each keypoint is matched with the first of its nearest candidates.", "quantifier": "all numbers of keypoints, descriptors, thresholds and monotone roundings", "why_tests_cant": "quantifies over all descriptor sets and over the rounding of floating point numbers", "anchors": ["src/nx_sift_detector.c:nx_sift_match_brute_force", "include/virg/nexus/nx_vec.h:nx_ucvec_dist_sq", "include/virg/nexus/nx_point_match_2d.h:nx_point_match_2d_from_keypoints"]}
{"id": "C84", "title": "Files of SIFT keypoints", "statement": "Keypoints and descriptors that are saved are loaded again, into arrays of any size; files that are cut off, negative numbers and other dimensions are refused. With a cache, each call in any sequence of calls returns a result of the detector for its own image and parameters, a second call does not run the detector, and other files stay as they are.", "quantifier": "all sequences of calls, images, parameters, arrays and file contents; every length a file is cut to", "why_tests_cant": "quantifies over all histories of calls and all contents of files", "anchors": ["src/nx_sift_detector.c:nx_sift_detector_compute_with_cache", "src/nx_sift_detector.c:nx_sift_match_brute_force_with_cache", "src/nx_sift_detector.c:nx_sift_xsave", "src/nx_sift_detector.c:nx_sift_xload"]}
{"id": "C85", "title": "SIFT descriptors", "statement": "Before normalisation each of the 128 cells of a descriptor is the sum, over all samples in the image and in the patch, of the length of the gradient times a Gaussian times the trilinear share of the cell; the share of all cells together is 1 inside. The window of samples contains the whole patch. The bytes are 512 times the normalised, limited and again normalised entries, without overflow, and do not change when the contrast of the image changes.", "quantifier": "all images, keypoints, cell positions, directions, factors of contrast", "why_tests_cant": "quantifies over all images and all real positions and angles", "anchors": ["src/nx_sift_detector.c:nx_sift_compute_fdescriptor", "src/nx_sift_detector.c:nx_sift_compute_descriptor", "include/virg/nexus/nx_vec.h:nx_svec_to_unit"]}
{"id": "C86", "title": "Orientations of SIFT keypoints", "statement": "The histogram of directions is, bin by bin, the weighted sum over all samples near the keypoint; smoothing is the mean of three neighbours on the circle six times, which keeps the sum and all bounds; the peak is the highest bin; keypoints are created exactly for bins above both neighbours and above 0.8 of the peak, never for two neighbouring bins, with a direction strictly inside the bin at the maximum of the parabola through the three bins.", "quantifier": "all images, positions, scales, histograms and contents of the arrays before", "why_tests_cant": "quantifies over all images and real values; a lost orientation looks like a missing keypoint", "anchors": ["src/nx_sift_detector.c:nx_sift_compute_ori_hist", "src/nx_sift_detector.c:nx_sift_compute_keys"]}
{"id": "C87", "title": "Extrema of differences of Gaussians", "statement": "With a border of at least two pixels, the search reads only memory of the images and reports, row by row and each once, exactly the pixels that are above 0.8 of the threshold, above or below all 26 neighbours in space and scale, and whose two curvatures have the same sign and differ by less than the factor of the edge threshold.", "quantifier": "all images, borders and thresholds", "why_tests_cant": "quantifies over all images; false positions at the border look like ordinary keypoints", "anchors": ["src/nx_sift_detector.c:nx_sift_process_dog", "src/nx_sift_detector.c:nx_sift_check_edge_threshold"]}
{"id": "C88", "title": "Interpolation of extrema", "statement": "Interpolation moves at most five times, never reads outside the images from any position of the search, and its result is a stationary point, with its value above the threshold, of the paraboloid through the values around a pixel, at most 1.5 pixels away; for images that are polynomials of degree two it is the exact stationary point.", "quantifier": "all images, starting positions, thresholds and solvers with the contract of LAPACK", "why_tests_cant": "quantifies over all images and positions", "anchors": ["src/nx_sift_detector.c:nx_sift_interp_peak_location", "include/virg/nexus/nx_mat234.h:nx_dmat3_sym_solve_single"]}
{"id": "C89", "title": "Store of SIFT keypoints", "statement": "Keypoints and their descriptors of 128 bytes are stored in parallel arrays that grow without losing contents; each keypoint is numbered with its position, every direction of a keypoint gives one entry in the order of the histogram, and the octaves halve the image as long as both sides are above the limit.", "quantifier": "all stores, keypoints, images of gradients and roundings of float", "why_tests_cant": "quantifies over all histories of the store; growth needs many keypoints", "anchors": ["src/nx_sift_detector.c:nx_sift_key_store_append", "src/nx_sift_detector.c:nx_sift_compute_keys", "src/nx_sift_detector.c:nx_sift_detector_compute"]}
{"id": "C90", "title": "Generic vectors", "statement": "Generic vectors behave as lists of items for every sequence of calls: adding, resizing, copying, wrapping and releasing have the expected effect on one list and none on the others, the cached fields always agree with the memory block, items do not move while there is room, and growth at least doubles the capacity.", "quantifier": "all sequences of allowed calls on any number of vectors, all item sizes", "why_tests_cant": "quantifies over all histories and interleavings of vectors sharing the heap", "anchors": ["src/nx_vector_gen.c", "src/nx_keypoint_vector.c", "src/nx_mem_block.c"]}
{"id": "C91", "title": "Matrices as text", "statement": "Writing a matrix and reading it again gives the same matrix with the same sizes; in general the reader gives, for any text, the matrix whose rows are the numbers of the lines, nothing when no line starts with a number, and ends the program when lines have different numbers of elements.", "quantifier": "all matrices and all texts", "why_tests_cant": "quantifies over all sizes and texts; the reader is a combination of line buffering, array growth and in-place transposition", "anchors": ["src/nx_mat.c:nx_dmat_xwrite", "src/nx_mat.c:nx_dmat_xread", "include/virg/nexus/nx_mat.h:nx_dmat_transpose"]}
{"id": "C92", "title": "Simulation of affine views", "statement": "The two transformations that the affine warp processor reports are inverse to each other; the forward one is the composition of the four parameters around the centre of the image; every point of the image lies inside of each buffer; sampling through the three buffers follows the inverse transformation; the background replaces exactly the pixels from outside of the interior of the image; and the warped image can be computed.", "quantifier": "all image sizes, scales, tilts and angles, all pixel positions", "why_tests_cant": "quantifies over real parameters and all points of an image; buffer sizes come from corners of a transformed rectangle", "anchors": ["src/nx_affine_warp_processor.c:nx_affine_warp_processor_warp", "src/nx_affine_warp_processor.c:nx_affine_warp_processor_resize_buffers", "src/nx_affine_warp_processor.c:warp_buffer_affine_bilinear", "src/nx_affine_warp_processor.c:fill_warp_buffer_bg"]}
{"id": "C93", "title": "A map of descriptors holds exactly what was added, and its searches are right", "statement": "For every sequence of additions, clearings and changes of the descriptor size, a VGDescriptorMap holds exactly the (id, descriptor) pairs added since it was last emptied, in order; add returns their new number; get_id and get_descriptor give the stored pair; search_nn on a non-empty map returns the id and the Hamming distance of the first entry among the nearest; search_by_id points to the descriptor of the first entry with that id and is null exactly if there is none. Searching an empty map, and adding once the descriptors take more than INT_MAX bytes, are undefined.", "quantifier": "all sequences of operations, all descriptor sizes, identifiers, descriptors and queries, as long as offsets fit an int", "why_tests_cant": "A test looks at a few maps; that the flat memory and the list of identifiers stay aligned through every history, and ties and absent identifiers are treated alike everywhere, needs an invariant.", "anchors": ["src/vg_descriptor_map.cc:43-95", "include/virg/nexus/vg_descriptor_map.hpp:37-69"]}
{"id": "C94", "title": "Conversions of images and colour maps", "statement": "Conversion between grayscale and RGBA, between bytes and float, and colouring by a colour map give at every pixel the documented value: gray to RGBA repeats the value and adds an opaque last channel; RGBA to gray is the weighted sum of the channels, inside the range; bytes become fractions of 255 and come back unchanged; a colour map is the linear interpolation of its table, stays inside the table for every value in [0,1], and never leaves the range of bytes, whatever the roundings of float are.", "quantifier": "all image sizes, strides and pixels, all values in [0,1], all five colour maps, all roundings with a small error", "why_tests_cant": "A test looks at a few pixels and values; whether an index can reach the end of a table or a channel 256 depends on rounding for each of about a billion values.", "anchors": ["src/nx_colorspace.c:32-163", "src/nx_image.c:287-486", "src/nx_color_map_data.h:26-1005", "include/virg/nexus/nx_colorspace.h:34-76"]}
{"id": "C95", "title": "The FAST detector returns exactly the score maxima of its levels, oriented by the intensity centroid", "statement": "For every 8-bit image and threshold, nx_fast_detector_detect returns the first max_n_keys of those FAST corners whose score exceeds that of all neighbouring corners, among the first max_n_keys * work_multiplier corners in raster order; they are numbered from 0, carry their score (the largest threshold at which they are corners) and their position. On a pyramid the result is the first max_n_keys of the concatenation of the maxima of the levels, coarsest first, with level, scale and sigma of their level and consecutive ids, and never more than asked for. This list is unique. The orientation is atan2 of the first moments of the open disc of the given radius, for those keypoints around which the square fits into the image (0 for others); the table of offsets is exactly this disc, each point once. The moment vector turns by a right angle with the patch, vanishes for patches symmetric under half a turn, and ignores additive brightness.", "quantifier": "all images, thresholds from 0 to 2^31-256, numbers of keypoints whose work buffer fits an int, all pyramids and numbers of levels; orientation radii up to 128", "why_tests_cant": "Tests run a few images; that truncation, suppression, the remaining room and the numbering compose correctly over any number of levels, and that no pixel outside of the image is read by any patch, is a statement about all images.", "anchors": ["src/nx_fast_detector.c:41-345", "src/fast/fast_nonmax.c:37-143", "src/fast/fast_9.c:38-5929"]}
{"id": "C96", "title": "A KITTI sequence is loaded and freed completely", "statement": "For every KITTI odometry data set and sequence with all its files: poses (twelve numbers each, by rows, separated by any white space) are all read and held by columns, the times are all read, for any number of frames (the arrays grow as needed), the four calibration matrices are held by columns, and the length is the number of frames. Different numbers of poses and times, absent files of times or calibration, and unavailable sequences end the program. Freeing a loaded sequence frees every pose exactly once. A frame is loaded exactly if camera and index are in range and the camera's directory exists, and different (sequence, camera, frame) have different files. A sequence without a file of poses (11 to 21 of the published set) is never loaded: the stream is null and is read.", "quantifier": "all files, numbers of frames, number formats that can be read back, white-space layouts, sequences, cameras and indices", "why_tests_cant": "A test loads one recorded sequence; growth at any length, the column order of all entries and the absence of double or missing frees need an induction over the files.", "anchors": ["src/nx_kitti_slam.c:44-244"]}
{"id": "C97", "title": "USAC estimation of a homography is consistent and keeps the best plausible hypothesis", "statement": "For every list of matches, tolerance, iteration limit and sequence of random numbers the estimation ends after less than the limit of iterations; the matches are permuted and marked exactly where the returned homography projects within the tolerance, and their number is returned if the homography is plausible, else zero. The returned homography has at least as many inliers as every hypothesis tried, all of which are plausible and come from four different matches; it is one of them or a least-squares refit of inliers that is better than all. Exact matches with a good first selection are recovered exactly. No behaviour is undefined.", "quantifier": "all matches, tolerances, iteration limits, sequences of random numbers, sort orders and contents of the SVD", "why_tests_cant": "A test fixes the random numbers; an optimum over all hypotheses and freedom from undefined behaviour quantify over all of them.", "anchors": ["src/nx_usac_homography.c:38-228", "src/nx_usac.c:34-124"]}
{"id": "C98", "title": "A Temple Color 128 sequence is loaded completely", "statement": "For every directory and standard name with the three files: the range of frames, their number, one bit for each attribute listed (one per line, any order, with repetitions and trailing bytes, up to the end or the first unknown line) and no other bits, and the box of every frame in the order of the file are loaded; superfluous boxes are not read. A missing directory or file, an unknown name, a range that ends before its start by more than a frame, or too few boxes end the program; a range of more frames than an int counts is undefined behaviour. Freeing frees every row once. A frame is loaded exactly if it is in the range, different frames and names have different files, and the printed attributes, though joined, determine the set of attributes.", "quantifier": "all files, ranges, lists of attributes, numbers of boxes, number formats that can be read back, names and frames", "why_tests_cant": "A test loads one data set; every order of attributes, every number of boxes and the unambiguity of joined names need induction.", "anchors": ["src/nx_temple_color_128.c:38-209", "include/virg/nexus/nx_temple_color_128.h:36-95"]}
{"id": "C99", "title": "The images and the score of the checkerboard detector", "statement": "For every gray image whose rotated version has at most 2147483647 samples and every radius: the first two of the four images are the means along rows and columns, each rounded down; the others are made by rotating the image into a square, taking means along rows and rotating back, where a pixel has the interpolated value of the position it comes from, rounded down, or is black if it comes from outside. The two rotations compose to a scaling by 2c² about the centre and the square covers the whole rotated image. Larger images overflow. The score is the squared spread of the four values, smoothed with normalised Gaussian weights of nine samples; it lies between zero and one and vanishes if the four images agree.", "quantifier": "all images, radii, sizes, strides, previous contents of the destinations and values of the Gaussian", "why_tests_cant": "A test looks at one picture; the position of every pixel in two chained rotations of an image of arbitrary size, in-bounds reads and the size at which the square overflows are statements about all sizes.", "anchors": ["src/nx_checkerboard_detector.c:36-104"]}
{"id": "C100", "title": "Image files are written by name and read by content", "statement": "For every name: the kind of file that is written is PNM, JPEG or PNG exactly if the name ends with one of their lower or upper case extensions. For every content: the kind of file that is read is decided by its first bytes. An image of any size saved under a name of any other extension (or none) is written as PNM and loaded again with its pixels; PNG and JPEG files that have their magic number come back to the function of their own kind. Saving changes no other file, loading depends on the contents only, and missing, short, textual, bitmap or unknown files are refused.", "quantifier": "all names, contents, images, sizes, strides and modes", "why_tests_cant": "A test saves and loads a few names; that no name or content is sent to the wrong function is a statement about all byte strings.", "anchors": ["src/nx_image_io.c:35-136"]}
{"id": "C101", "title": "A VGG affine sequence is loaded completely", "statement": "For every directory and name: if the five matrix files begin with nine numbers each, six matrices are loaded, the first the unit matrix, the others with the numbers of the files by columns. If anything is missing the program ends, and nothing is undefined. Freeing frees every matrix once. A frame is loaded exactly if its index is one of 0 to 5 and its .ppm file, or else its .pgm file, can be loaded; different sequences, frames and kinds have different files.", "quantifier": "all files, directories, names, number formats, frames and modes", "why_tests_cant": "A test loads one data set; any missing or short file and every layout of numbers is a universal statement.", "anchors": ["src/nx_vgg_affine_dataset.c:38-149", "include/virg/nexus/nx_vgg_affine_dataset.h:38-43"]}
{"id": "C102", "title": "Images of a panorama reach the reference on shortest paths", "statement": "For every number of images and every outcome of the pairwise estimation: a homography of a pair is kept exactly with at least twenty matches and twenty inliers; the reference is the first image with the most inliers. If every image is connected to the reference, the path search ends and leads every image to the reference along existing homographies, on a path that is not longer, in the rounded arithmetic of the program, than any other walk; the product of matrices takes each point through the homographies of the path, and no missing homography is used. If an image is not connected, the search writes to visited[-1].", "quantifier": "all numbers of images, matches, inliers, homographies, costs and rounded additions", "why_tests_cant": "Optimality over all walks and termination for all networks are universal statements; a test has one network.", "anchors": ["tools/nx_panorama_builder.c:209-236", "tools/nx_panorama_builder.c:238-285", "tools/nx_panorama_builder.c:346-417"]}
{"id": "C103", "title": "A panorama shows every image where its homography puts it", "statement": "For every list of images and homographies: the panorama is the smallest box around all corners up to one pixel on each side, and every pixel shows the last image with a point there, at the point that its homography takes to the pixel, or is black. All reads and writes are inside of the images. A singular homography is undefined behaviour.", "quantifier": "all numbers and sizes of images, homographies and pixels", "why_tests_cant": "Quantifies over all homographies; errors of the origin or the inverse show only for some of them.", "anchors": ["tools/nx_panorama_builder.c:429-526"]}
{"id": "C104", "title": "Keypoints of two views are matched with their nearest counterparts", "statement": "For all keypoints whose identifiers are their places, and for every extractor: the map of a view holds the descriptors of the keypoints that have one; each left keypoint with a descriptor is matched with the first of the right keypoints at the smallest Hamming distance if this is below 70, in order, and with no other; no index is out of range. With a known homography each left keypoint is matched with the first of the right keypoints nearest to its image if one is nearer than 3, and the earlier matches stay in front. If only the left view has descriptors the behaviour is undefined.", "quantifier": "all lists of keypoints, descriptors, homographies and roundings to float", "why_tests_cant": "The order of equal distances, missing descriptors and points at infinity are universal statements over two lists.", "anchors": ["tools/vg_stereo_matcher_main.cc:92-153", "tools/vg_stereo_matcher_main.cc:184-219", "src/vg_brief_extractor.cc:61-74"]}
{"id": "C105", "title": "Refining a homography lowers its mean error by damped least squares", "statement": "For all matches and homographies: the function for the error gives the mean squared residual of the inliers, their residuals, and for every inlier the exact derivatives of its image with respect to the nine elements; dividing by the last element does not move points. The refinement either ends with an error or returns a homography with a strictly smaller mean error over the same inliers, without undefined behaviour. The matrix of the system should be that of the damped normal equations, and a solved system should give the step; both are false.", "quantifier": "all matches, homographies, solvers and contents of uninitialised arrays", "why_tests_cant": "Correctness of a derivative in all directions and the sign of a change over all iterations are universal.", "anchors": ["tools/vg_stereo_matcher_main.cc:263-429", "src/nx_linear_solvers.c:36-57"]}
{"id": "C106", "title": "Scale space of the SIFT detector", "statement": "For every image, number of scales and first width: each level of an octave is the level before smoothed with a normalised Gaussian whose squared width is the difference of the squared widths of the two levels, so that the width of level i is mult^i times that of level 0 and level n has twice the width; the differences are those of neighbouring levels; the scales 1 to n are searched once each and in order, the next octave starts from every second pixel of level n, as long as both sides are above the limit; all arrays of the detector are large enough and the loop ends.", "quantifier": "all images without padding, numbers of scales, widths, borders, contents of the images of the detector before, and searches", "why_tests_cant": "quantifies over all images, parameters and histories; a wrong level or width gives keypoints that look ordinary", "anchors": ["src/nx_sift_detector.c:nx_sift_detector_new", "src/nx_sift_detector.c:kernel_sigma", "src/nx_sift_detector.c:nx_sift_detector_prepare_octave", "src/nx_sift_detector.c:nx_sift_detector_process_octave", "src/nx_sift_detector.c:nx_sift_detector_compute"]}
{"id": "C107", "title": "Printed options are complete and aligned", "statement": "For all options with at least one name: the list of values has exactly one line for every option that is not for help, in the order of definition, and one for the rest; the usage text has one line for every option with its default or REQUIRED; all names end in the same column, which is as wide as the longest name; joined names fit exactly into their memory; values are complete up to 1023 bytes, in particular all numbers of type int; longer strings are cut without a closing quote; no access is out of range.", "quantifier": "all lists of options, names, values, help texts and contents of uninitialised memory", "why_tests_cant": "quantifies over all names and values; an off-by-one in the joined name is a write past the memory that tests do not see", "anchors": ["src/nx_options.c:nx_options_print_values", "src/nx_options.c:nx_options_print_usage", "src/nx_options.c:nx_options_print", "src/nx_options.c:compute_name_column_size", "src/nx_options.c:name_short_name_join", "src/nx_options.c:nx_option_data_to_string"]}
{"id": "C108", "title": "Objects of correspondences behave like values", "statement": "For all programs on objects of VGPointCorrespondence2D (new, clone, add, mark, sort, clear, normalize, denormalize): every object has its own value, operations change only the object that they name, and an object that is normalised, left alone while the program works on others, and denormalised has the matches it had, with or without sorting in between up to the order of costs. This holds for clones, but not for copies, which share the statistics.", "quantifier": "all programs (sequences of operations), all worlds of objects and all matches over any field", "why_tests_cant": "quantifies over all sequences of operations and the aliasing of the shared statistics", "anchors": ["src/vg_point_correspondence_2d.cc:clone", "src/vg_point_correspondence_2d.cc:normalize", "src/vg_point_correspondence_2d.cc:denormalize", "src/vg_point_correspondence_2d.cc:sort_by_match_cost", "include/virg/nexus/vg_point_correspondence_2d.hpp:VGPointCorrespondence2D"]}
{"id": "C109", "title": "Allocations are large enough and arrays grow at linear cost", "statement": "For all counts and sizes: NX_NEW with a count that is not negative and nx_xcalloc give the whole array or end the program, calloc only if the product fits size_t. For every sequence of additions to an array grown with NX_ENSURE_CAPACITY: all elements are there in order, the capacity is at most one and a half times the size and twelve more, realloc has moved at most three elements per addition and 24 more, and was called a logarithmic number of times.", "quantifier": "all counts and sizes, all behaviours of malloc, all sequences of additions", "why_tests_cant": "bounds on the total cost over all sequences and products beyond 2^64 cannot be observed by tests", "anchors": ["src/nx_alloc.c:nx_malloc", "src/nx_alloc.c:nx_xmalloc", "src/nx_alloc.c:nx_calloc", "src/nx_alloc.c:nx_xcalloc", "include/virg/nexus/nx_alloc.h:NX_NEW", "include/virg/nexus/nx_alloc.h:NX_ENSURE_CAPACITY", "src/nx_csv_parser.c:nx_csv_data_add_record"]}
{"id": "C110", "title": "Options free all their memory once", "statement": "For every program that creates options, adds options of all types and the rest any number of times, sets values from any command lines any number of times, sets usage texts and prints: every block is allocated when it is used, none is freed twice, every block belongs to the options at every time, and after nx_options_free none is left.", "quantifier": "all sequences of operations, all command lines, all positions in the map", "why_tests_cant": "leaks and uses of freed memory over all sequences of calls; depends on combinations (two names of the same kind, repeated string options, replaced rest) that no finite set of tests covers", "anchors": ["src/nx_options.c:nx_options_free", "src/nx_options.c:nx_options_free_list", "src/nx_options.c:nx_options_free_map", "src/nx_options.c:nx_options_free_rest_data", "src/nx_options.c:nx_option_data_new", "src/nx_options.c:nx_option_data_set_names", "src/nx_options.c:nx_options_set_from_args", "src/nx_options.c:nx_options_check_required"]}
{"id": "C111", "title": "Data frames free all their memory once", "statement": "For every program that creates a data frame, adds columns and rows, sets, clears and reads elements of all types, and makes factors, with strings of its own or strings got from the frame: the program ends with a fatal error, or every block is allocated when it is used, none is freed twice, every block belongs to the frame at every time, and after nx_data_frame_free none is left.", "quantifier": "all sequences of operations, all shapes of frames, all strings", "why_tests_cant": "leaks and uses of freed memory over all sequences of calls; depends on the type of the column, whether the element was set before and where the string comes from", "anchors": ["src/nx_data_frame.c:nx_data_frame_add_column", "src/nx_data_frame.c:nx_data_frame_add_row", "src/nx_data_frame.c:nx_data_frame_set_string", "src/nx_data_frame.c:nx_data_frame_set_factor", "src/nx_data_frame.c:nx_data_frame_make_factor", "src/nx_data_frame.c:nx_data_frame_free", "src/nx_data_frame.c:nx_data_column_free"]}
{"id": "C112", "title": "Loading a CSV file leaves only the data frame", "statement": "For every sequence of tokens and every length of the file: nx_data_frame_load_csv_stream ends with a fatal error, or every block of the text, lexer, parser, tokens, fields, records and types is allocated when it is used and freed exactly once, and the blocks that remain are those of the well-formed data frame that it returns, so that nothing is left after nx_data_frame_free.", "quantifier": "all sequences of tokens, all numbers of reallocations", "why_tests_cant": "leaks and uses of freed memory on all inputs, including missing labels, missing fields and columns that change their type", "anchors": ["src/nx_csv_parser.c:nx_csv_parser_parse", "src/nx_csv_parser.c:nx_csv_parser_parse_record", "src/nx_csv_parser.c:nx_csv_parser_consume", "src/nx_csv_parser.c:nx_csv_data_get_column_types", "src/nx_csv_parser.c:nx_csv_data_to_data_frame", "src/nx_csv_parser.c:nx_csv_data_free", "src/nx_data_frame.c:nx_data_frame_load_csv_stream"]}
{"id": "C113", "title": "PNG and JPEG files are loaded with the pixels they show", "statement": "For every PNG file (all colour types, with or without transparency) and every JPEG file, every load mode and every image to load to: the image has the type that the mode asks for, the size of the file, and in every pixel the samples of the file (gray from colour or colour from gray where asked for, alpha 255 where there is none), nothing outside the image is written, and all memory but that of the image is freed, also when the file is damaged. The rows that are saved are those of the image, and a PNG image that is saved and loaded again is the same.", "quantifier": "all files, sizes, pixels, load modes, images with any stride", "why_tests_cant": "the combinations of colour type, transparency chunk and load mode, memory behind the image, and the paths of damaged files", "anchors": ["src/nx_image_io_png.c:load_as_png", "src/nx_image_io_png.c:save_as_png", "src/nx_image_io_jpeg.c:load_as_jpeg", "src/nx_image_io_jpeg.c:save_as_jpeg"]}
{"id": "C114", "title": "JSON trees and the JSON log own their memory", "statement": "For every text that is parsed to a JSON tree, from a string or a stream: the program is ended by an error, or it performs no invalid memory access, afterwards exactly the blocks of the tree are allocated in addition to those before (the text buffer, the lexer, the parser and the texts of all tokens are freed), and nx_json_tree_free frees every one of them once. For every program of calls that add values to streams of the JSON log, append to arrays in it, print, clear or free it: it is ended exactly by a number of a stream that is not 0 to 31, every access is valid, and after nx_json_log_free nothing of the log is left and it can be used again.", "quantifier": "all token sequences and stream lengths, all programs of log calls with values of any shape", "why_tests_cant": "leaks and double frees depend on the nesting and the order of calls and do not show in results", "anchors": ["src/nx_json_tree.c:nx_json_tree_free", "src/nx_json_tree.c:nx_json_tree_from_stream", "src/nx_json_parser.c:nx_json_parser_parse", "src/nx_json_log.c:nx_json_log_get_stream", "src/nx_json_log.c:nx_json_log_clear_stream", "src/nx_json_log.c:nx_json_log_free"]}
{"id": "C115", "title": "BRIEF descriptors on pyramids, also at an angle", "statement": "For every extractor with current limits, every pyramid and every keypoint on one of its levels: the C++ extractor gives no descriptor or one with the octets of the extractor whose bits are the outcomes of the tests, and reads only pixels of the sampling level. nx_brief_extractor_compute_pyr_at_theta reads and writes inside of the levels, the image and the descriptor, returns true exactly if all its tests are inside of the image, and then each bit is the outcome of its turned test; if it returns false the octets behind the one it stopped in are unchanged. At the angle zero it gives the descriptor of nx_brief_extractor_compute_pyr for every point that passes the check, and at a right angle it tests the offsets turned by it.", "quantifier": "all extractors, pyramids, points, levels and angles", "why_tests_cant": "reads outside of images and levels depend on random offsets, the position and the level and usually do not show", "anchors": ["src/nx_brief_extractor.c:nx_brief_extractor_check_point_pyr", "src/nx_brief_extractor.c:nx_brief_extractor_compute_pyr", "src/nx_brief_extractor.c:nx_brief_extractor_compute_pyr_at_theta", "src/vg_brief_extractor.cc:VGBriefExtractor::compute_pyr"]}
{"id": "C116", "title": "The tool that fits a homography", "statement": "For every list of matches and every sequence of random numbers for which nx_fit_homography ends: fit_ransac leaves the matches with their own coordinates, in some order, marked iff the homography takes the left point to less than the given number of pixels from the right one, and returns the number of the marks or zero; every step of ransac_benchmark counts the same for its homography, and the matches are the given ones afterwards. load_validation_points loads the points whose homogeneous coordinates are the columns of a text with six rows, load_ground_truth_from_options the matrix of a text with three rows of three numbers, and any other text ends the program. When the tool ends everything it has allocated has been freed once.", "quantifier": "all match lists, tolerances, random numbers and numbers of steps; all texts; all combinations of options", "why_tests_cant": "normalisation hides the unit of the tolerance, indeterminate values and leaks do not show, and test files have third coordinates equal to one", "anchors": ["tools/nx_fit_homography_main.c:main", "tools/nx_fit_homography_main.c:ransac_benchmark", "tools/nx_fit_homography_main.c:fit_ransac", "tools/nx_fit_homography_main.c:load_validation_points", "tools/nx_fit_homography_main.c:load_ground_truth_from_options"]}
{"id": "C117", "title": "Graphics contexts and annotated images", "statement": "A curve drawn by nx_gc_curve goes from the start to the end point that were given, with these control points, and nx_gc_rel_curve_to takes its points relative to the current point. A colour set by nx_gc_set_color appears in the pixels of an image as red, green, blue and alpha. A mark of VGImageAnnotator is the circle, square, diamond, plus or cross of the given size around its point; an edge is the line between its points with a mark at each end; a region of interest is the outline of its rectangle; keypoints are circles of radius sigma times scale at their position in the image, coloured by level; nothing else is drawn. create_match_image shows both images side by side and, for each match or each inlier, both displacements and a diamond around each point. An annotator frees what it allocates, and the pixels outlive the surface that uses them.", "quantifier": "all points, sizes, colours, images, keypoints, lists of matches, states of the context", "why_tests_cant": "drawings are compared by eye; wrong control points, an exchange of channels that shows only on other machines, and an assertion that fails for all inputs need the calls to be followed, not looked at", "anchors": ["src/nx_gc_cairo_imp.c:nx_gc_curve", "src/nx_gc_cairo_imp.c:nx_gc_set_color", "src/vg_image_annotator.cc:draw_mark", "src/vg_image_annotator.cc:draw_edge", "src/vg_image_annotator.cc:create_match_image", "src/vg_image_annotator.cc:set_image"]}
{"id": "C118", "title": "Commands and data for gnuplot", "statement": "nx_gnuplot_set_title, set_xlabel, set_ylabel and set_title_and_labels make the given texts the title and the labels of the axes, whatever the texts are. nx_gnuplot_set_terminal selects the given type with the given size, name or file. nx_gnuplot_send_data_frame makes a named block whose lines are the labels and the rows of the frame, with the cells of a row as its fields in order. nx_gnuplot_free closes a pipe that nx_gnuplot_new has opened, leaves a given stream open, and frees the object.", "quantifier": "all texts, sizes, terminals, identifiers, data frames, labels", "why_tests_cant": "gnuplot would have to be run and its state inspected; a command about the wrong property, a quote in a title, a missing cell and a newline in a string all give output that looks fine on the examples at hand", "anchors": ["src/nx_gnuplot.c:nx_gnuplot_new", "src/nx_gnuplot.c:nx_gnuplot_free", "src/nx_gnuplot.c:nx_gnuplot_send_data_frame", "src/nx_gnuplot.c:nx_gnuplot_set_terminal", "src/nx_gnuplot.c:nx_gnuplot_set_title", "src/nx_gnuplot.c:nx_gnuplot_set_xlabel", "src/nx_gnuplot.c:nx_gnuplot_set_ylabel"]}
{"id": "C119", "title": "Messages and fatal errors", "statement": "What a program writes through NX_INFO, NX_LOG, NX_WARNING and NX_ERROR is one line for every message whose level is not below the verbosity that holds at the time of the call, in the order of the calls; each line gives back the level, the tag, the name of the function, the line number and the text; on a terminal the lines are coloured, elsewhere there are no control sequences. At NX_LOG_SILENT nothing is written. NX_FATAL reports at every verbosity and does not return: by default it writes the report and the call stack and exits with NX_EXIT_FATAL, otherwise it calls the function set last by nx_log_fatal_func.", "quantifier": "all sequences of calls, levels, tags, names, line numbers, formats and arguments, terminals or not", "why_tests_cant": "the behaviour depends on the history of calls and on the output device; that a line can be read back needs a statement about all texts, and what happens behind a handler that returns cannot be tested", "anchors": ["src/nx_log_c_impl.c:nx_log_formatted", "src/nx_log_c_impl.c:nx_log_fatal", "src/nx_log_c_impl.c:default_fatal_func", "src/nx_log_c_impl.c:print_call_stack", "src/nx_log_c_impl.c:nx_log_verbosity", "src/nx_log_c_impl.c:nx_log_fatal_func", "include/virg/nexus/nx_log.h:NXLogVerbosity"]}
{"id": "C120", "title": "Files and directories", "statement": "nx_check_file says whether there is a file that can be read, nx_check_dir whether there is a directory that can be read. nx_scan_dir returns the names in a directory, all of them, in the order of alphasort, and frees what scandir has allocated. nx_ensure_dir returns only if the directory is there, makes it if it is missing, changes nothing else, and may be called by several processes at the same time: none of them fails if the directory can be made.", "quantifier": "all file systems, paths, orders, numbers of processes and interleavings of their system calls", "why_tests_cant": "a race needs a particular interleaving of two processes; that all names arrive in order, with nothing leaked, is a statement about all directories", "anchors": ["src/nx_filesystem.c:nx_scan_dir", "src/nx_filesystem.c:nx_check_dir", "src/nx_filesystem.c:nx_check_file", "src/nx_filesystem.c:nx_ensure_dir"]}
{"id": "C121", "title": "Saving and loading files", "statement": "When saving an image or a data frame reports success, the file contains all of its bytes; in every case it contains a beginning of them; a file that fits onto the disk is saved. When loading reports success, what was loaded is what the whole file says. Every stream that a function opens is closed again when it returns, exactly once, and the variants that must succeed end the program exactly when the others report failure.", "quantifier": "all contents, divisions into writes, points where the C library flushes its buffer, disk sizes, unreadable positions and decoders", "why_tests_cant": "a full disk at the moment of closing, or a read error in the middle, is an environment that unit tests do not have; the points where the library flushes are not under the control of a test", "anchors": ["src/nx_io.c:nx_xfopen", "src/nx_io.c:nx_xfclose", "src/nx_io.c:nx_fopen", "src/nx_io.c:nx_fclose", "src/nx_io.c:nx_xtmpfile", "src/nx_image_io_png.c:nx_image_save_png", "src/nx_image_io_jpeg.c:nx_image_save_jpeg", "src/nx_image_io_pnm.c:nx_image_save_pnm", "src/nx_data_frame.c:nx_data_frame_save_csv", "src/nx_data_frame.c:nx_data_frame_load_csv"]}
{"id": "C122", "title": "The error function", "statement": "nx_erf differs from the error function by at most 1.5e-7 everywhere, is odd, strictly increasing and strictly between -1 and 1, and tends to 1 and -1.", "quantifier": "all real numbers", "why_tests_cant": "an error bound for every argument cannot be sampled; between two test points the error could be anything", "anchors": ["src/nx_math.c:nx_erf"]}
{"id": "C123", "title": "Memory of pyramids, detectors and extractors", "statement": "For every sequence of operations on an image pyramid with its builder, a SIFT detector, an affine warp processor, a FAST detector and a BRIEF extractor, all accesses are to allocated blocks, the allocated blocks are exactly those of the objects and of the rest of the program, no block is freed twice, and after the objects are freed exactly the blocks of the rest are left. A FAST detector has its table whenever it needs it, and the array of a BRIEF extractor has room for all its tests.", "quantifier": "all sequences of operations, numbers of levels, scales and octets, and all ways in which sizes grow", "why_tests_cant": "leaks, double frees and stale pointers depend on the history of calls; tests run a few of them", "anchors": ["src/nx_image_pyr.c:nx_image_pyr_alloc_levels", "src/nx_image_pyr_builder.c:nx_image_pyr_builder_free", "src/nx_sift_detector.c:nx_sift_detector_new", "src/nx_sift_detector.c:nx_sift_detector_free", "src/nx_affine_warp_processor.c:nx_affine_warp_processor_free", "src/nx_fast_detector.c:nx_fast_detector_set_ori_param", "src/nx_brief_extractor.c:nx_brief_extractor_resize"]}
{"id": "C124", "title": "Memory of graphs", "statement": "For every list of edges added to a graph with lists of neighbours, all accesses are to allocated blocks, there is exactly one node for each direction of each edge that is not a loop, however often it is added, and freeing the graph leaves exactly the blocks of the rest of the program. A graph with a matrix gives back its blocks. Edges with unknown vertices are refused.", "quantifier": "all numbers of vertices and lists of edges", "why_tests_cant": "depends on the order and repetition of the edges; a walk over freed nodes often goes unnoticed in a test", "anchors": ["src/nx_graph.c:nx_graph_insert_adj_lst", "src/nx_graph.c:nx_graph_free_adj_lst", "src/nx_graph.c:nx_graph_edge_list_free", "src/nx_graph.c:nx_graph_free_adj_mat"]}
{"id": "C125", "title": "Memory of the panorama builder", "statement": "For every sequence of runs, all accesses of a panorama builder are to allocated blocks, no block is freed twice, and freeing the builder leaves exactly the blocks of the rest of the program.", "quantifier": "all numbers of images and runs, all contents of the cache, growth of arrays, images without keypoints and results of the fits", "why_tests_cant": "the blocks depend on the whole history of runs and on files; lost blocks do not change any result", "anchors": ["tools/nx_panorama_builder.c:nx_panorama_builder_new_from_options", "tools/nx_panorama_builder.c:nx_panorama_builder_init", "tools/nx_panorama_builder.c:nx_panorama_builder_find_shortest_paths", "tools/nx_panorama_builder.c:nx_panorama_builder_free", "src/nx_sift_detector.c:nx_sift_detector_compute_with_cache", "src/nx_sift_detector.c:nx_sift_match_brute_force_with_cache"]}
{"id": "C126", "title": "Singular value decomposition through the wrappers of LAPACK", "statement": "If dgesvd works as documented, then for every matrix of any size stored with any leading dimensions the wrappers store orthogonal U and V and non-negative singular values in descending order with M = U S V^T, where asked for and nowhere else, and give back their work array. The values are the same whichever function computes them. The assumptions about decompositions in the estimation of homographies, fundamental and essential matrices and points follow from that. Sizes below 1 are reported; a decomposition that fails is not.", "quantifier": "all sizes, matrices, leading dimensions, contents of the arrays and all decompositions the library may choose", "why_tests_cant": "tests compare a few matrices with the one library that is linked; the layout, the aliasing of arguments and the choice of signs differ between libraries", "anchors": ["src/nx_svd.c:nx_dsvd_usvt", "src/nx_svd.c:nx_dsvd_us", "src/nx_svd.c:nx_dsvd_svt", "src/nx_svd.c:nx_dsvd_only_s", "src/nx_svd.c:nx_dgesvd_query_lwork", "src/nx_homography.c:nx_homography_estimate_dlt", "src/nx_epipolar.c:nx_fundamental_estimate"]}
{"id": "C127", "title": "The homography of the stereo matcher", "statement": "The first estimation of the stereo matcher leaves the matches with their coordinates in pixels, marked iff the homography takes their point to less than three pixels from the other one; it is the estimation with normalisation. The second one fits the marked matches best in normalised coordinates, is exact if they agree with one transformation, and marks all matches anew. With less than 15 inliers the program ends with the first estimate; otherwise it ends with a homography that has a smaller mean error than the second estimate, or with an error. Other objects of correspondences and their statistics do not change.", "quantifier": "all lists of matches, random numbers, sorts, singular value decompositions, solvers, added matches and contents of uninitialised arrays", "why_tests_cant": "the program is a tool without tests; its result depends on random numbers and on the order of normalisation, estimation and denormalisation", "anchors": ["tools/vg_stereo_matcher_main.cc:estimate_initial_homography", "tools/vg_stereo_matcher_main.cc:estimate_guided_homography", "tools/vg_stereo_matcher_main.cc:main", "include/virg/nexus/vg_homography.hpp:estimate_from_inliers", "src/vg_point_correspondence_2d.cc:normalize"]}
{"id": "C128", "title": "The benchmark of the SIFT detector", "statement": "The benchmark prints one line for each of the eight sequences and each of their five further frames, in order. A line has the numbers of keypoints of the first and of the further frame, the number of the matches that are clearly nearest, and how many of those the true homography maps nearer to their partner than 3, 2 and 1 pixels; these three numbers do not grow from left to right and are at most the number of matches, which is at most the number of keypoints of the first frame. The benchmark ends whenever the files are there.", "quantifier": "all files, detectors, thresholds and roundings", "why_tests_cant": "the program needs a dataset that is not part of the repository and has no tests", "anchors": ["tools/nx_sift_benchmark_main.c:evaluate_vgg_pair", "tools/nx_sift_benchmark_main.c:run_vgg_benchmark", "src/nx_sift_detector.c:nx_sift_match_brute_force", "src/nx_homography.c:nx_homography_mark_inliers"]}
{"id": "C129", "title": "The C++ handles of images free each image once, with its last handle", "statement": "For programs of constructors, copies, assignments, swaps, wraps, clones, create, copy_of, release, set_zero and destructors of VGImage: each call does what it should, an image is freed when the last variable that owns it goes and not before, no variable that owns an image is left with a freed one, and when all variables have gone no image and no memory of one is left.", "quantifier": "all programs and all sizes, strides and types of images", "why_tests_cant": "quantifies over all sequences of calls and over which variables share an image", "anchors": ["src/vg_image.cc:VGImage", "src/vg_image.cc:copy_of", "src/vg_image.cc:clone", "src/vg_image.cc:wrap", "src/vg_image.cc:create", "src/vg_image.cc:create_like", "src/vg_image.cc:swap_with", "src/vg_image.cc:release", "src/vg_image.cc:set_zero", "include/virg/nexus/vg_image.hpp:VGImage"]}
{"id": "C130", "title": "The numbers of a uniform sampler are determined by its seed and their count", "statement": "In any program that makes, seeds, uses and frees uniform samplers and the shared one, each sampler gives, from its last seeding on, the numbers of the SFMT19937 sequence of its seed in order, in single numbers, doubles and filled arrays alike; other samplers and the old content of memory play no role; each seed has exactly one sequence; 64 bit numbers are refused exactly after an odd count and filling exactly when numbers made at once are left; using or freeing a sampler that is freed, or using one that is not seeded, is the only undefined behaviour.", "quantifier": "all programs, all seeds, all content of allocated memory", "why_tests_cant": "quantifies over all programs, all interleavings of samplers and uninitialised memory", "anchors": ["src/nx_uniform_sampler.c:nx_uniform_sampler_instance", "src/nx_uniform_sampler.c:nx_uniform_sampler_instance_free", "src/nx_uniform_sampler.c:nx_uniform_sampler_alloc", "src/nx_uniform_sampler.c:nx_uniform_sampler_new", "src/nx_uniform_sampler.c:nx_uniform_sampler_new_with_seed", "src/nx_uniform_sampler.c:nx_uniform_sampler_free", "src/nx_uniform_sampler.c:nx_uniform_sampler_init_time", "src/nx_uniform_sampler.c:nx_uniform_sampler_init_seed", "src/nx_uniform_sampler.c:nx_uniform_sampler_sample32", "src/nx_uniform_sampler.c:nx_uniform_sampler_sample64", "src/nx_uniform_sampler.c:nx_uniform_sampler_fill32", "src/nx_uniform_sampler.c:nx_uniform_sampler_fill64", "src/nx_uniform_sampler.c:nx_uniform_sampler_sample_s", "src/nx_uniform_sampler.c:nx_uniform_sampler_sample_d"]}
{"id": "C131", "title": "The SIFT parameters and the C++ options hold what the command line says", "statement": "After nx_sift_parameters_add_to_options, among any other declared options, and any command lines, nx_sift_parameters_from_options succeeds, and each parameter is that of the last occurrence of its option or else that of nx_sift_default_parameters. Declaring through VGOptions is declaring the same options directly; VGOptions::get_rest gives the arguments that are not options in order, and VGOptions::get_string the text of the option, without undefined behaviour.", "quantifier": "all declared options, all sequences of command lines", "why_tests_cant": "quantifies over all declarations and command lines", "anchors": ["src/nx_sift_detector.c:nx_sift_parameters_add_to_options", "src/nx_sift_detector.c:nx_sift_parameters_from_options", "include/virg/nexus/nx_sift_detector.h:nx_sift_default_parameters", "src/nx_options.c:nx_options_get_bool", "src/nx_options.c:nx_options_get_int", "src/nx_options.c:nx_options_get_double", "src/nx_options.c:nx_options_get_string", "src/vg_options.cc:add_bool", "src/vg_options.cc:add_int", "src/vg_options.cc:add_double", "src/vg_options.cc:add_string", "src/vg_options.cc:add_rest", "src/vg_options.cc:add_help", "src/vg_options.cc:get_string", "src/vg_options.cc:get_rest"]}
{"id": "C132", "title": "Sampling an image into itself gives the image that sampling it into another gives", "statement": "nx_image_downsample and nx_image_upsample (and VGImage::downsampled_from) with the same image as source and destination stay inside the memory of the image and leave the pixels that they give in another destination.", "quantifier": "all grayscale images of any size, stride, contents and capacity of the memory, any sample type", "why_tests_cant": "quantifies over all images; the destination is usually another image in tests", "anchors": ["src/nx_image.c:nx_image_downsample_uc", "src/nx_image.c:nx_image_downsample_f32", "src/nx_image.c:nx_image_upsample_uc", "src/nx_image.c:nx_image_upsample_f32", "src/nx_image.c:nx_image_resize", "src/nx_mem_block.c:nx_mem_block_resize", "src/vg_image.cc:downsampled_from"]}
{"id": "C133", "title": "Derivatives and differences computed into the image they read are those computed into another image", "statement": "nx_image_deriv_x, nx_image_deriv_y (and VGImage::deriv_x_of, deriv_y_of) with the same image as source and destination, and nx_image_subtract with the difference stored in one of its operands, stay inside the memory of the images and leave the values that they give in another destination.", "quantifier": "all grayscale images of type float, for the difference also 8-bit images, of any size, stride, contents and capacity of the memory", "why_tests_cant": "quantifies over all images; the destination is usually another image in tests", "anchors": ["src/nx_image.c:nx_image_deriv_x_f32", "src/nx_image.c:nx_image_deriv_x", "src/nx_image.c:nx_image_deriv_y_f32", "src/nx_image.c:nx_image_deriv_y", "src/nx_image.c:nx_image_subtract", "src/nx_image.c:nx_image_set_zero", "src/nx_image.c:nx_image_resize", "src/vg_image.cc:deriv_x_of", "src/vg_image.cc:deriv_y_of"]}
{"id": "C134", "title": "Seeding with an array gives a certified state and distinguishes keys", "statement": "sfmt_init_by_array accesses only the state and the first key_length words of the key, leaves a state that passes the certification, so that the sequence is never stuck at zero, and expands different keys of the same length to different states.", "quantifier": "all keys, all lengths below the largest int, any number of numbers drawn", "why_tests_cant": "keys of up to 2^31 words; that no information is lost is a statement about all pairs of keys", "anchors": ["src/SFMT/SFMT.c:sfmt_init_by_array", "src/SFMT/SFMT.c:func1", "src/SFMT/SFMT.c:func2", "src/SFMT/SFMT.c:period_certification"]}
{"id": "C135", "title": "The SSE2 code of the random number generator gives the numbers of the portable code", "statement": "Whether HAVE_SSE2 is defined does not matter: any program of calls of sfmt_genrand_uint32 and sfmt_fill_array32 gives the same numbers, leaves the same generator and stops at the same assertions with SFMT-sse2.h as with the portable code.", "quantifier": "all states, all programs of draws and fills, all arrays aligned to 16 bytes", "why_tests_cant": "only one of the two is compiled into a given build", "anchors": ["src/SFMT/SFMT-sse2.h:mm_recursion", "src/SFMT/SFMT-sse2.h:sfmt_gen_rand_all", "src/SFMT/SFMT-sse2.h:gen_rand_array", "src/SFMT/SFMT.c:sfmt_fill_array32", "src/SFMT/SFMT.h:sfmt_genrand_uint32"]}
{"id": "C136", "title": "The OpenGL projection is that of the pinhole camera", "statement": "The matrix of nx_gl_projection_sym_perspective_from_camera, followed by the division and the viewport, maps a point to the pixel where the pinhole camera with the given focal lengths sees it, the near and far planes to depths -1 and 1, depth grows with distance, and exactly the points seen in the window between the planes are inside the clip volume; nx_gl_projection_to_mvp gives the product projection, view, model, where a missing matrix counts as the identity.", "quantifier": "all focal lengths, planes, window sizes, points and matrices over an ordered field", "why_tests_cant": "quantifies over all cameras and points; nothing in the repository runs the projection without an OpenGL context", "anchors": ["src/GL/nx_gl_projection.c:nx_gl_projection_sym_perspective_from_camera", "src/GL/nx_gl_projection.c:nx_gl_projection_to_mvp", "include/virg/nexus/nx_mat234.h:nx_dmat4_mul"]}
{"id": "C137", "title": "The OpenGL wrappers keep no objects and touch no others", "statement": "A buffer made by nx_gl_buffer_new holds the data; releasing it leaves every other buffer and binding as before. A program from nx_gl_program_from_vf_shaders has compiled, linked and been validated, and deleting it leaves exactly the objects that existed before; when the library reports a failure the log is printed from memory that was allocated, whatever the library answers.", "quantifier": "all states of the library, all names, sizes, data, sources, lengths and contents of logs", "why_tests_cant": "needs an OpenGL context and drivers that fail", "anchors": ["src/GL/nx_gl_buffer.c:nx_gl_buffer_alloc", "src/GL/nx_gl_buffer.c:nx_gl_buffer_new", "src/GL/nx_gl_buffer.c:nx_gl_buffer_free", "src/GL/nx_gl_buffer.c:nx_gl_buffer_bind", "src/GL/nx_gl_shader.c:nx_gl_shader_xcreate_and_compile", "src/GL/nx_gl_program.c:nx_gl_program_xcreate_and_link", "src/GL/nx_gl_program.c:nx_gl_program_xvalidate", "include/virg/nexus/GL/nx_gl_program.h:nx_gl_program_from_vf_shaders"]}
{"id": "C138", "title": "The first level of a pyramid is the image the pyramid is built from", "statement": "nx_image_pyr_builder_build puts the pixels of the given image into the first level before it is smoothed, for every grayscale image that its assertions accept, also one of type float and one that belongs to the pyramid, without access outside of the memory of the two images; no other image changes.", "quantifier": "all states of memory reached by image functions, all images with sizes, strides and types of samples", "why_tests_cant": "quantifies over all images and previous contents of the level; pyramids of images of type float, or of their own first level, are not tested", "anchors": ["src/nx_image_pyr.c:nx_image_pyr_copy_to_level0", "src/nx_image_pyr.c:nx_image_pyr_create_level", "src/nx_image_pyr_builder.c:nx_image_pyr_builder_build", "src/nx_image_pyr_builder.c:nx_image_pyr_builder_update", "src/nx_image_pyr_builder.c:nx_image_pyr_builder_init_levels", "src/nx_image.c:nx_image_resize", "src/nx_image.c:nx_image_copy", "src/vg_image_pyr.cc:VGImagePyr::rebuild_from"]}
{"id": "C139", "title": "Colouring an image into itself gives the colours that colouring it into another image gives", "statement": "nx_image_apply_colormap and VGImage::apply_colormap accept the same image as color and as gray; they then use only memory of the image and each pixel of the result has the colour of the pixel that was there.", "quantifier": "all grayscale images with any sizes, strides and contents, all colour maps, all roundings of float", "why_tests_cant": "the values are read from memory that is being written; the effect depends on sizes, columns and channels and is stated for all of them, not for one picture", "anchors": ["src/nx_image.c:nx_image_apply_colormap", "src/nx_image.c:nx_image_resize", "src/vg_image.cc:VGImage::apply_colormap", "src/nx_colorspace.c:nx_color_map_apply"]}
{"id": "C140", "title": "Handles of the levels of C++ pyramids can be used as long as the program has them, and nothing leaks", "statement": "In any program that makes, copies, assigns, builds again and destroys variables of type VGImagePyr and takes handles of their levels with operator[]: each use of a handle, each rebuild and each destructor uses only memory that is allocated; when all variables are destroyed no image, pyramid or builder is left.", "quantifier": "all programs, by induction over calls; all numbers of levels, all variables, copies and handles", "why_tests_cant": "the property is about all sequences of calls; tests keep the pyramid in a variable that outlives the handles", "anchors": ["src/vg_image_pyr.cc:VGImagePyr::VGImagePyr", "src/vg_image_pyr.cc:VGImagePyr::build_fast_from", "src/vg_image_pyr.cc:VGImagePyr::build_fine_from", "src/vg_image_pyr.cc:VGImagePyr::build_scaled_from", "src/vg_image_pyr.cc:VGImagePyr::rebuild", "src/vg_image_pyr.cc:VGImagePyr::rebuild_from", "include/virg/nexus/vg_image_pyr.hpp:VGImagePyr::operator[]", "src/nx_image_pyr.c:nx_image_pyr_alloc_levels", "src/nx_image_pyr.c:nx_image_pyr_free_levels", "src/nx_image_pyr_builder.c:nx_image_pyr_builder_build0"]}
{"id": "C141", "title": "Scaling an image into itself gives the image that scaling it into another gives", "statement": "nx_image_scale and VGImage::scaled_of with the same image as source and destination leave in it the image that they would leave in another one, and use only the memory of the image.", "quantifier": "all grayscale images of bytes or floats with or without gaps between the rows, all capacities of their memory, all scales below one; the scales one and two", "why_tests_cant": "the results depend on the old content of the memory at places that depend on the scale, the width and the capacity; tests scale into other images", "anchors": ["src/nx_image.c:nx_image_scale_uc", "src/nx_image.c:nx_image_scale_f32", "src/nx_image.c:nx_image_scale", "src/vg_image.cc:VGImage::scaled_of", "src/nx_image.c:nx_image_resize"]}
{"id": "C142", "title": "Smoothed downsampling of an image into itself gives the image that doing it into another gives", "statement": "nx_image_downsample_aa_x and nx_image_downsample_aa_y with the same image as source and destination leave in it the image that they would leave in another one, and use only the memory of the image.", "quantifier": "all grayscale images of bytes or floats with at least four rows or columns, with or without gaps between the rows, all capacities of their memory", "why_tests_cant": "whether memory behind the image is read depends on the parity of the size, and the wrong pixels differ little from the right ones in smooth images; tests downsample into other images", "anchors": ["src/nx_image.c:nx_image_downsample_aa_x", "src/nx_image.c:nx_image_downsample_aa_y", "src/nx_image.c:nx_image_resize"]}
{"id": "C143", "title": "The random tests of a BRIEF extractor are found, lie in its square and have distant points", "statement": "For every positive radius and every seed nx_brief_extractor_randomize_with_seed ends, all accesses are in the array of offsets, all points of the tests are at most the radius away from the centre in each coordinate, the two points of a test are at least three pixels apart, and the limits are in the square as well. Extractors of the class VGBriefExtractor with the same sizes have the same tests, whenever they are made.", "quantifier": "all radii, numbers of octets, arrays and sequences of numbers of the generator", "why_tests_cant": "the rejection loop ends or not depending on the radius and on numbers of the generator with probability 2^-24; tests use the radii 16 and 24", "anchors": ["src/nx_brief_extractor.c:nx_brief_extractor_randomize_with_seed", "src/nx_brief_extractor.c:nx_brief_extractor_resize", "src/nx_brief_extractor.c:nx_brief_extractor_update_limits", "src/vg_brief_extractor.cc:VGBriefExtractor::pick_good_seed", "src/vg_brief_extractor.cc:VGBriefExtractor::resize"]}
{"id": "C144", "title": "Variables of the class VGBriefExtractor are values that own their extractors", "statement": "In any program that makes, copies, assigns, resizes, randomizes and destroys variables of type VGBriefExtractor: each call uses only extractors that are allocated, each variable has tests that lie in the square of its radius, when all variables are destroyed no extractor is left, and a call on a variable changes the tests of no other variable.", "quantifier": "all programs, by induction over calls; all variables, copies, sizes, seeds and numbers of the generator", "why_tests_cant": "the property is about all sequences of calls; the tools make one variable and never copy it", "anchors": ["include/virg/nexus/vg_brief_extractor.hpp:VGBriefExtractor::randomize_with_seed", "include/virg/nexus/vg_brief_extractor.hpp:VGBriefExtractor::randomize", "src/vg_brief_extractor.cc:VGBriefExtractor::VGBriefExtractor", "src/vg_brief_extractor.cc:VGBriefExtractor::resize", "src/vg_brief_extractor.cc:VGBriefExtractor::pick_good_seed", "src/nx_brief_extractor.c:nx_brief_extractor_free"]}
{"id": "C145", "title": "Comparisons of floating point numbers order all arrays, and minimum and maximum are elements", "statement": "nx_compare_double_incr is a total order on the values of all doubles, so that all ways to sort an array give the same values in the same places; nx_min_s, nx_min_d, nx_max_s and nx_max_d do not depend on the order of the two numbers; the minimum and the maximum of nx_dstatistics_1d are elements of the array with no lesser and no greater one.", "quantifier": "all bit patterns of float and double, with signed zeros, subnormal numbers, infinities and NaN; all arrays", "why_tests_cant": "there are 2^64 doubles, and tests use finite numbers only", "anchors": ["include/virg/nexus/nx_math.h:nx_compare_double_incr", "include/virg/nexus/nx_math.h:nx_min_s", "include/virg/nexus/nx_math.h:nx_min_d", "include/virg/nexus/nx_math.h:nx_max_s", "include/virg/nexus/nx_math.h:nx_max_d", "src/nx_statistics.c:nx_dstatistics_1d"]}
{"id": "C146", "title": "Pixels of all levels of a pyramid are pixels of the first image", "statement": "A keypoint at pixel x of a level has the position nx_keypoint_x0 on the first image: inside of the image, in the order of the pixels, different for different pixels, and x times the scale for levels that halve the sizes; points between pixels are on the image as well; the first level has the size of the image.", "quantifier": "all image sizes, all scales, all pixels; in float arithmetic with rounding to nearest, ties to even", "why_tests_cant": "there are 2^31 sizes, 2^32 scales and all pixels; rounding errors show up only for few of them", "anchors": ["include/virg/nexus/nx_keypoint.h:nx_keypoint_x0", "include/virg/nexus/nx_keypoint.h:nx_keypoint_y0", "include/virg/nexus/nx_keypoint.h:nx_keypoint_xs0", "include/virg/nexus/nx_keypoint.h:nx_keypoint_ys0", "src/nx_image_pyr_builder.c:nx_image_pyr_builder_init_levels"]}
{"id": "C147", "title": "Gray values of float images survive the conversion to colours and back", "statement": "Converting a gray image of floats to colours and back gives the same image, and brighter colours do not have lesser gray values.", "quantifier": "all float values between 0 and 1, all colours, all image sizes; in float arithmetic with rounding to nearest, ties to even", "why_tests_cant": "there are 2^30 gray values and 2^90 colours; tests compare with a tolerance", "anchors": ["include/virg/nexus/nx_colorspace.h:nx_rgb_to_gray_f32", "src/nx_colorspace.c:nx_convert_rgba_to_gray_f32", "src/nx_colorspace.c:nx_convert_gray_to_rgba_f32"]}
{"id": "C148", "title": "Making an image smaller reads only pixels of it, in float arithmetic", "statement": "For every float scale between 0 and 1 scaling an image reads no memory outside of its pixels, and every pixel of the result is the bilinear interpolation at its position divided by the scale, up to the rounding of float arithmetic.", "quantifier": "all image sizes and contents, all floats between 0 and 1 as the scale; in float arithmetic with rounding to nearest, ties to even", "why_tests_cant": "the read behind the last row happens for few of the 2^30 scales and only for wide images, and reads one byte of the heap; nothing is seen without instrumentation", "anchors": ["src/nx_image.c:nx_image_scale_uc", "src/nx_image.c:nx_image_scale_f32", "include/virg/nexus/nx_image.h:nx_image_scale_uc"]}
{"id": "C149", "title": "The mean in double arithmetic is between the least and the greatest element", "statement": "The mean of nx_dstatistics_1d and nx_istatistics_1d is between the least and the greatest element, close to the exact mean, and equal elements have the standard deviation zero, in double arithmetic.", "quantifier": "all samples of doubles that do not overflow and of ints, all sizes, any sort that permutes; rounding to nearest, ties to even", "why_tests_cant": "tests compare with a tolerance that hides the violations; there are 2^128 samples of two elements already", "anchors": ["src/nx_statistics.c:nx_dstatistics_1d", "src/nx_statistics.c:nx_istatistics_1d"]}
{"id": "C150", "title": "Uniform samples are less than one and equally likely, and so are the gray values of noise", "statement": "nx_uniform_sampler_sample_s and nx_uniform_sampler_sample_d give numbers from 0 to below 1, all possible ones for equally many of the numbers of the generator, and the noise of warped images has all gray values equally often.", "quantifier": "all 32 bit numbers of the generator, all pairs of them; in float and double arithmetic with rounding to nearest, ties to even", "why_tests_cant": "1 is given by 128 of 2^32 numbers, and the gray value 255 too; the distribution of doubles is over 2^64 pairs", "anchors": ["src/nx_uniform_sampler.c:nx_uniform_sampler_sample_s", "src/nx_uniform_sampler.c:nx_uniform_sampler_sample_d", "src/SFMT/SFMT.h:sfmt_to_res53_mix", "src/nx_image_warp.c:nx_image_warp_affine_bilinear"]}
{"id": "C151", "title": "The box filter gives the means of windows in float arithmetic too", "statement": "nx_image_filter_box_x, _y and nx_image_filter_box give the mean of every window although the sums are running sums in float: for bytes the same image as exact arithmetic, constant images stay constant, and no result is less than all samples of its window.", "quantifier": "all images, radii, buffers; additions, subtractions and divisions in float, rounded to nearest, ties to even", "why_tests_cant": "the running sum of a pixel depends on all pixels before it; radii above 32896 and samples above 2^24 are needed to see a wrong sum", "anchors": ["src/nx_filter.c:nx_convolve_box", "src/nx_image.c:nx_image_filter_box_x", "src/nx_image.c:nx_image_filter_box_y", "src/nx_image.c:nx_image_filter_box"]}
{"id": "C152", "title": "Smoothing with Gaussian kernels in float arithmetic", "statement": "nx_kernel_sym_gaussian gives a kernel in float whose values sum up to one, as its documentation says, nx_image_smooth of 8-bit images gives weighted means with such kernels, never leaves the range of bytes, and keeps white images white.", "quantifier": "all values of the Gaussian function between 0 and 1 with 1 in the middle, all kernels of up to 4096 values, all images and buffers; in float arithmetic, rounded to nearest, ties to even, without contraction", "why_tests_cant": "rounding of the kernel depends on the standard deviation; whether a white image keeps its value depends on the last bit of a sum of rounded products", "anchors": ["src/nx_filter.c:nx_kernel_sym_gaussian", "src/nx_filter.c:nx_convolve_sym", "src/nx_image.c:nx_image_smooth"]}
{"id": "C153", "title": "Times are measured in milliseconds without loss of nanoseconds", "statement": "nx_timer_measure_in_msec gives the time between two readings of the clock: close to the exact one, longer for longer times, not negative if the clock does not go back, and the same for equal times.", "quantifier": "all pairs of readings with less than 10^9 nanoseconds; in double arithmetic, rounded to nearest, ties to even; up to 131072 seconds for the error and the order", "why_tests_cant": "a difference of the nanoseconds is negative when a second begins in between, and the two terms cancel", "anchors": ["include/virg/nexus/nx_timing.h:nx_timer_measure_in_msec"]}
{"id": "C154", "title": "Buffers for filters are aligned and large enough", "statement": "nx_filter_buffer_alloc asks for the least number of bytes that is enough and a multiple of the alignment, so that the assertion of nx_xaligned_alloc holds; the buffer of nx_image_filter_buffer_alloc is enough for rows and columns with their borders; invalid sizes are refused.", "quantifier": "all alignments from 1 to 2^32, numbers of samples and borders whose sum fits an int, image sizes and kernel sizes, and all behaviours of aligned_alloc", "why_tests_cant": "a size that is one too small is hidden by the rounding for most lengths, and aligned_alloc failures are not tested", "anchors": ["src/nx_alloc.c:nx_aligned_alloc", "src/nx_alloc.c:nx_xaligned_alloc", "src/nx_filter.c:nx_filter_buffer_alloc", "src/nx_image.c:nx_image_filter_buffer_alloc"]}
{"id": "C155", "title": "Image derivatives in float arithmetic are the exact ones, rounded once", "statement": "Every number that nx_image_deriv_x and nx_image_deriv_y compute is the exact derivative (difference of the neighbours, borders extended along a straight line), rounded once to float, although up to three operations are rounded; zero derivatives and signs are exact; for bytes the result is that of the converted image.", "quantifier": "all images of bytes or floats at least two pixels wide (high), of any size and stride for x and without padding for y; float arithmetic rounded to nearest, ties to even, with subnormal numbers; no overflow", "why_tests_cant": "double rounding and underflow show for few pairs of the 2^64 pairs of samples", "anchors": ["src/nx_image.c:nx_image_deriv_x", "src/nx_image.c:nx_image_deriv_y"]}
{"id": "C156", "title": "Normalisation in float arithmetic keeps the order and is near the exact one", "statement": "nx_image_normalize_to_zero_one, computed in float arithmetic, gives numbers between zero and one in the order of the samples, near the exact ones; the least sample becomes zero, the greatest one becomes one; in symmetric mode zero becomes one half.", "quantifier": "all images of floats of all sizes, strides and numbers of channels whose greatest sample is not only the first one (all images for the range), with a range up to 2^100; rounded to nearest, ties to even, with subnormal numbers; no overflow, no fused operations", "why_tests_cant": "the error depends on the ratio of offset and range; images of tests start at zero", "anchors": ["src/nx_image.c:nx_image_normalize_to_zero_one", "src/nx_image.c:nx_image_axpy_f32"]}
{"id": "C157", "title": "Brightness and contrast of bytes in float arithmetic", "statement": "nx_image_axpy_uc, computed in float arithmetic, keeps or reverses the order of the samples, gives the truncated and limited value of the exact result, and is exact for integers.", "quantifier": "all images of all sizes, strides and numbers of channels; all factors up to 8192 and offsets up to 2^21 for the distance and for integers; all factors for the order; rounded to nearest, ties to even; no fused operations", "why_tests_cant": "truncation after rounding differs from truncation of the exact number for few combinations", "anchors": ["src/nx_image.c:nx_image_axpy_uc"]}
{"id": "C158", "title": "Warping images in float arithmetic", "statement": "nx_image_warp_affine_bilinear, computed in float arithmetic with positions moved on from pixel to pixel, is exact for transformations with integers, interpolates up to 1/2000 of a grey level, and the error of its positions grows at most linearly along a row.", "quantifier": "all images, sizes, strides, backgrounds and transformations; all numbers up to 2^24 for integers; rows of up to 2^20 pixels and positions up to 2^21 for the error; rounded to nearest, ties to even; no fused operations", "why_tests_cant": "the error of a position depends on all steps of a row, and a wrong grey level appears only for few fractions", "anchors": ["src/nx_image_warp.c:nx_image_warp_affine_bilinear"]}
{"id": "C159", "title": "Rotation by 45 degrees in float arithmetic", "statement": "nx_image_rotate45 for bytes, computed in float arithmetic, is the affine warp with a rounded translation; the positions it reads are those of the exact rotation up to (N+1)(N+2)/1000000 pixels for sides up to N, and its pixels are the interpolated ones up to the effect of that error.", "quantifier": "all images with sides up to N, for all N up to 500000, both directions, all pixels; rounded to nearest, ties to even; no fused operations", "why_tests_cant": "errors accumulate along rows and depend on the size of the images", "anchors": ["src/nx_image_warp.c:nx_image_rotate45_uc", "src/nx_image_warp.c:nx_image_rotate45"]}
{"id": "C160", "title": "Rotation of float images by 45 degrees", "statement": "nx_image_rotate45 for float images is always defined for images of moderate size and range, but all its samples are integers, so that every image with samples up to one tenth becomes black.", "quantifier": "all images with sides up to 500000 and samples up to one million in magnitude, both directions, all strides; rounded to nearest, ties to even; no fused operations", "why_tests_cant": "the loss does not show for images with large samples, and extrapolated samples near the border can be as large as nine times the largest", "anchors": ["src/nx_image_warp.c:nx_image_rotate45_f32", "src/nx_image_warp.c:nx_image_rotate45"]}
{"id": "C161", "title": "Warps between buffers in float arithmetic", "statement": "warp_buffer_affine_bilinear in float arithmetic is defined for all transformations whose positions stay within 2^21, makes a cleared buffer the image warped with a black background, and its pixels inside the source are those of the exact interpolation, except for a stated error of the position and for truncation.", "quantifier": "all images with sides up to 2^24, all cleared buffers up to 2^20 columns, all transformations with positions within 2^21; rounded to nearest, ties to even; no fused operations", "why_tests_cant": "the error grows along rows, and a position can cross the border of the source by rounding only for special transformations", "anchors": ["src/nx_affine_warp_processor.c:warp_buffer_affine_bilinear"]}
{"id": "C162", "title": "Filling the background in float arithmetic", "statement": "fill_warp_buffer_bg in float arithmetic is defined for all kinds of background and all transformations whose positions stay within 2^21; a fixed background replaces the pixels from outside of the interior of the image and keeps those from inside, except within a stated error of the position; repeated pixels are those of the exact interpolation at the border up to 1/1000 and truncation.", "quantifier": "all images and buffers up to 2^20 columns, all three kinds of background, all transformations with positions within 2^21; rounded to nearest, ties to even; no fused operations", "why_tests_cant": "the error of the position grows along rows, and only pixels very close to the border of the interior are affected", "anchors": ["src/nx_affine_warp_processor.c:fill_warp_buffer_bg"]}
