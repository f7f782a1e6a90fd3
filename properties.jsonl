{"id": "C01", "title": "split then join restores the text", "statement": "For every text and every delimiter string (the empty one included), join(split(text, delim), delim) equals text, and split returns at least one part.", "quantifier": "all byte strings text and delim", "why_tests_cant": "The claim ranges over an unbounded set of inputs; a test samples finitely many of them.", "anchors": ["include/gul14/join_split.h:split", "include/gul14/join_split.h:join"]}
{"id": "C02", "title": "split cuts exactly at the delimiters", "statement": "With a non-empty delimiter, split cuts at the leftmost non-overlapping occurrences and nowhere else: no returned part but the last one can be cut earlier, and no part contains the delimiter. For a single-character delimiter, split(join(parts, d), d) gives back parts whenever parts is non-empty and no part contains d.", "quantifier": "all texts, delimiters and part lists", "why_tests_cant": "The claim ranges over an unbounded set of inputs; a test samples finitely many of them.", "anchors": ["include/gul14/join_split.h:split", "include/gul14/join_split.h:join"]}
{"id": "C03", "title": "tokenize returns exactly the maximal delimiter-free runs", "statement": "tokenize(str, delims) returns, in order, exactly the maximal non-empty runs of characters of str that are not in delims; no token is empty and no token contains a delimiter character.", "quantifier": "all strings and all delimiter sets (empty set included)", "why_tests_cant": "The claim ranges over an unbounded set of inputs; a test samples finitely many of them.", "anchors": ["include/gul14/tokenize.h:tokenize", "include/gul14/tokenize.h:tokenize_sv"]}
{"id": "C04", "title": "replace substitutes the leftmost non-overlapping occurrences once", "statement": "replace(haystack, needle, hammer) returns the haystack with each leftmost non-overlapping occurrence of needle replaced by hammer, replaced text is not scanned again, the function terminates for every input, and an empty needle changes nothing.", "quantifier": "all haystacks, needles and hammers", "why_tests_cant": "The claim ranges over an unbounded set of inputs; a test samples finitely many of them.", "anchors": ["src/replace.cc:replace"]}
{"id": "C05", "title": "replace_inplace equals replace", "statement": "replace_inplace(s, needle, hammer) terminates and leaves in s exactly the string replace(s, needle, hammer) returns, also when hammer contains needle (for views that do not alias s).", "quantifier": "all haystacks, needles and hammers", "why_tests_cant": "The claim ranges over an unbounded set of inputs; a test samples finitely many of them.", "anchors": ["src/replace.cc:replace_inplace", "src/replace.cc:replace"]}
{"id": "C06", "title": "trim removes exactly the outer whitespace", "statement": "trim_left, trim_right and trim return the string without its longest prefix and/or suffix consisting of ws_chars; the result starts and ends with a non-ws character or is empty; trim equals trimming left then right (in either order) and is idempotent; an empty ws_chars set changes nothing; the _sv versions return the same content.", "quantifier": "all strings and all ws_chars sets", "why_tests_cant": "The claim ranges over an unbounded set of inputs; a test samples finitely many of them.", "anchors": ["src/trim.cc:trim", "src/trim.cc:trim_sv", "src/trim.cc:trim_left_sv", "src/trim.cc:trim_right_sv"]}
{"id": "C07", "title": "string_view searches return the extreme matching index", "statement": "find, rfind, find_first_of, find_last_of, find_first_not_of and find_last_not_of return the smallest (largest) position at or after (at or before) pos that matches, and npos exactly if there is none.", "quantifier": "all views, all needles/character sets, all positions including npos", "why_tests_cant": "The claim ranges over an unbounded set of inputs; a test samples finitely many of them.", "anchors": ["include/gul14/string_view.h:find", "include/gul14/string_view.h:rfind", "include/gul14/string_view.h:find_first_of", "include/gul14/string_view.h:find_last_of", "include/gul14/string_view.h:find_first_not_of", "include/gul14/string_view.h:find_last_not_of"]}
{"id": "C08", "title": "string_view slicing stays inside the viewed range", "statement": "substr(pos, n) throws out_of_range iff pos > size() and otherwise views exactly the characters [pos, min(pos+n, size())); remove_prefix, remove_suffix, copy and at never reach outside the view.", "quantifier": "all views, all 64-bit positions and counts", "why_tests_cant": "The claim ranges over an unbounded set of inputs; a test samples finitely many of them.", "anchors": ["include/gul14/string_view.h:substr", "include/gul14/string_view.h:remove_prefix", "include/gul14/string_view.h:remove_suffix", "include/gul14/string_view.h:copy", "include/gul14/string_view.h:at"]}
{"id": "C09", "title": "string_view comparison is the lexicographic total order", "statement": "compare() has the sign of the lexicographic order of the characters, it is antisymmetric and transitive, and the six relational operators all agree with it.", "quantifier": "all pairs and triples of views", "why_tests_cant": "The claim ranges over an unbounded set of inputs; a test samples finitely many of them.", "anchors": ["include/gul14/string_view.h:compare", "include/gul14/string_view.h:operator=="]}
{"id": "C10", "title": "contains / starts_with / ends_with mean what they say", "statement": "contains(h,n) is true iff h = a+n+b for some a, b; starts_with iff h = n+b; ends_with iff h = a+n.", "quantifier": "all haystacks and needles", "why_tests_cant": "The claim ranges over an unbounded set of inputs; a test samples finitely many of them.", "anchors": ["include/gul14/substring_checks.h:contains", "include/gul14/substring_checks.h:starts_with", "include/gul14/substring_checks.h:ends_with"]}
{"id": "C11", "title": "the _nocase checks are the plain checks up to ASCII case", "statement": "equals_nocase, contains_nocase, starts_with_nocase and ends_with_nocase give the answer of the case-sensitive check on the ASCII-lowercased arguments; their answers do not change when either argument is recased.", "quantifier": "all haystacks and needles", "why_tests_cant": "The claim ranges over an unbounded set of inputs; a test samples finitely many of them.", "anchors": ["include/gul14/substring_checks.h:equals_nocase", "include/gul14/substring_checks.h:contains_nocase", "include/gul14/substring_checks.h:starts_with_nocase", "include/gul14/substring_checks.h:ends_with_nocase"]}
{"id": "C12", "title": "escape / unescape round trip", "statement": "unescape(escape(s)) == s for every byte string s; escape is injective.", "quantifier": "all byte strings", "why_tests_cant": "The claim ranges over an unbounded set of inputs; a test samples finitely many of them.", "anchors": ["src/escape.cc:escape", "src/escape.cc:unescape"]}
{"id": "C13", "title": "escape produces only printable ASCII", "statement": "Every character of escape(s) is a printable ASCII character, no unescaped double quote occurs in it, and strings without special characters are unchanged.", "quantifier": "all byte strings", "why_tests_cant": "The claim ranges over an unbounded set of inputs; a test samples finitely many of them.", "anchors": ["src/escape.cc:escape"]}
{"id": "C14", "title": "unescape decodes exactly the known sequences", "statement": "unescape replaces left to right each \\\", \\\\, \\n, \\r, \\t and \\xHH (H any hex digit, either case) by its character and leaves every other character - including backslashes that start no known sequence - as it is.", "quantifier": "all byte strings", "why_tests_cant": "The claim ranges over an unbounded set of inputs; a test samples finitely many of them.", "anchors": ["src/escape.cc:unescape"]}
{"id": "C15", "title": "cat concatenates", "statement": "cat(a, b, ...) equals the concatenation of its arguments in order, for any number of arguments; integers are rendered in decimal such that to_number reads back the same integer.", "quantifier": "all argument lists, all integers of the supported types", "why_tests_cant": "The claim ranges over an unbounded set of inputs; a test samples finitely many of them.", "anchors": ["src/cat.cc:cat", "include/gul14/cat.h:ConvertingStringView"]}
{"id": "C16", "title": "to_number for integers accepts exactly the in-range decimal numerals", "statement": "to_number<Unsigned>(s) has a value iff s is a non-empty digit string whose decimal value fits the type; to_number<Signed>(s) likewise with an optional leading minus; the returned value is the decimal value. No leading blanks, plus signs or trailing characters are accepted.", "quantifier": "all strings, all integer widths and signednesses", "why_tests_cant": "The claim ranges over an unbounded set of inputs; a test samples finitely many of them.", "anchors": ["include/gul14/to_number.h:to_number", "include/gul14/to_number.h:to_unsigned_integer"]}
{"id": "C17", "title": "to_number for floats accepts exactly the documented numerals and reads their value", "statement": "to_number<float type>(s) has a value iff s is [-]digits[.digits][e[+-]digits] (with at least one mantissa digit) or an inf/nan spelling; up to floating-point rounding the value is the decimal value; no input causes undefined behaviour; values out of range give an empty result.", "quantifier": "all strings", "why_tests_cant": "The claim ranges over an unbounded set of inputs; a test samples finitely many of them.", "anchors": ["include/gul14/to_number.h:to_unsigned_float", "include/gul14/to_number.h:to_normalized_float", "include/gul14/to_number.h:parse_exponent", "include/gul14/to_number.h:parse_inf_nan", "src/to_number.cc:pow10"]}
{"id": "C18", "title": "to_number<bool> accepts exactly 0, 1, true, false", "statement": "to_number<bool>(s) has a value iff s is \"0\", \"1\", or \"true\"/\"false\" in any ASCII case, and the value is the one named.", "quantifier": "all strings", "why_tests_cant": "The claim ranges over an unbounded set of inputs; a test samples finitely many of them.", "anchors": ["include/gul14/to_number.h:to_number"]}
{"id": "C19", "title": "hex_string is fixed-width, exact and invertible", "statement": "hex_string(n) consists of exactly 2*sizeof(n) lowercase hex digits whose base-16 value is n modulo 2^width; hex_string of a range is the separator-joined list of the element renderings.", "quantifier": "all integers of all widths, all ranges and separators", "why_tests_cant": "The claim ranges over an unbounded set of inputs; a test samples finitely many of them.", "anchors": ["include/gul14/string_util.h:hex_string"]}
{"id": "C20", "title": "repeat and safe_string", "statement": "repeat(s, n) is n copies of s; safe_string(p, n) is \"\" for a null pointer and otherwise the longest NUL-free prefix of the first n bytes, and it never reads a byte past the first NUL or past n.", "quantifier": "all strings, counts and buffers", "why_tests_cant": "The claim ranges over an unbounded set of inputs; a test samples finitely many of them.", "anchors": ["src/string_util.cc:repeat", "src/string_util.cc:safe_string"]}
{"id": "C21", "title": "ASCII case conversion touches only ASCII letters", "statement": "lowercase_ascii/uppercase_ascii map exactly A-Z/a-z to the other case, leave every other byte (including bytes >= 0x80) alone, preserve length, are idempotent; in-place versions give the same string.", "quantifier": "all bytes and strings", "why_tests_cant": "The claim ranges over an unbounded set of inputs; a test samples finitely many of them.", "anchors": ["include/gul14/case_ascii.h:lowercase_ascii", "include/gul14/case_ascii.h:uppercase_ascii", "src/case_ascii.cc:lowercase_ascii_inplace"]}
{"id": "C22", "title": "hexdump shows every element once, in order, in lines of 16", "statement": "hexdump prints every element (the first 16000 at most, followed by a truncation notice) exactly once in order, 16 per line, each line prefixed with the offset of its first element; the elements can be read back from the text.", "quantifier": "all element sequences and prompts", "why_tests_cant": "The claim ranges over an unbounded set of inputs; a test samples finitely many of them.", "anchors": ["include/gul14/hexdump.h:hexdump_stream", "include/gul14/hexdump.h:hexdump"]}
{"id": "C23", "title": "SlidingBuffer behaves as a bounded deque", "statement": "After any sequence of push_back, push_front, pop_back, pop_front, clear and resize, the buffer's content (read by [], at, iterators, front, back) is that of a deque of bounded length in which pushing into a full buffer drops the element at the opposite end; size, capacity, empty and filled agree with it.", "quantifier": "all capacities, element values and operation histories", "why_tests_cant": "The claim ranges over every sequence of operations; a test runs a few chosen sequences.", "anchors": ["include/gul14/SlidingBuffer.h:push_back", "include/gul14/SlidingBuffer.h:push_front", "include/gul14/SlidingBuffer.h:pop_back", "include/gul14/SlidingBuffer.h:pop_front", "include/gul14/SlidingBuffer.h:operator[]", "include/gul14/SlidingBuffer.h:clear"]}
{"id": "C24", "title": "SlidingBuffer resize keeps the promised end", "statement": "resize(n) keeps all elements if they fit, otherwise exactly the first n (keep_front) or last n (keep_back) elements in order, and the buffer goes on behaving as a deque of capacity n.", "quantifier": "all buffers in all reachable states, all new capacities", "why_tests_cant": "The claim ranges over every sequence of operations; a test runs a few chosen sequences.", "anchors": ["include/gul14/SlidingBuffer.h:resize", "include/gul14/SlidingBuffer.h:change_capacity", "include/gul14/SlidingBuffer.h:SlidingBufferExposed::resize"]}
{"id": "C25", "title": "SlidingBuffer element access is safe", "statement": "at(i) returns the i-th element for i < size() and throws out_of_range otherwise; [] with i < size() never leaves the storage; reads beyond size() yield default-constructed elements as documented.", "quantifier": "all reachable buffers, all indices", "why_tests_cant": "The claim ranges over every sequence of operations; a test runs a few chosen sequences.", "anchors": ["include/gul14/SlidingBuffer.h:at", "include/gul14/SlidingBuffer.h:operator[]"]}
{"id": "C26", "title": "SlidingBuffer iterators enumerate the content", "statement": "Iterating from begin() to end() (or rbegin() to rend()) visits exactly the elements in order (reverse order); iterator differences, comparisons and jumps are integer arithmetic on positions.", "quantifier": "all reachable buffers", "why_tests_cant": "The claim ranges over every sequence of operations; a test runs a few chosen sequences.", "anchors": ["include/gul14/SlidingBuffer.h:SlidingBufferIterator", "include/gul14/SlidingBuffer.h:begin", "include/gul14/SlidingBuffer.h:rbegin"]}
{"id": "C27", "title": "SlidingBufferExposed exposes all elements contiguously", "statement": "The raw range begin()..end() of SlidingBufferExposed contains exactly the live elements (in some rotation), and is empty iff the buffer is empty.", "quantifier": "all reachable buffers", "why_tests_cant": "The claim ranges over every sequence of operations; a test runs a few chosen sequences.", "anchors": ["include/gul14/SlidingBuffer.h:SlidingBufferExposed"]}
{"id": "C28", "title": "SmallVector behaves as a vector", "statement": "After any sequence of push_back, pop_back, insert, erase, emplace, resize, reserve, shrink_to_fit, clear, assign, copy, move and swap with arguments that do not alias the vector, the content is that of a list subjected to the same operations.", "quantifier": "all element types/values, internal capacities and operation histories", "why_tests_cant": "The claim ranges over every sequence of operations; a test runs a few chosen sequences.", "anchors": ["include/gul14/SmallVector.h:push_back", "include/gul14/SmallVector.h:insert", "include/gul14/SmallVector.h:erase", "include/gul14/SmallVector.h:emplace", "include/gul14/SmallVector.h:resize", "include/gul14/SmallVector.h:assign", "include/gul14/SmallVector.h:swap"]}
{"id": "C29", "title": "SmallVector never touches a dead object", "statement": "No operation sequence reads, assigns to, or destroys an element that is not alive, constructs over a live element, or leaves one undestroyed: constructions and destructions balance.", "quantifier": "all operation histories", "why_tests_cant": "The claim ranges over every sequence of operations; a test runs a few chosen sequences.", "anchors": ["include/gul14/SmallVector.h:make_space_at_idx_for_n_elements", "include/gul14/SmallVector.h:erase", "include/gul14/SmallVector.h:reserve", "include/gul14/SmallVector.h:shrink_to_fit", "include/gul14/SmallVector.h:swap"]}
{"id": "C30", "title": "SmallVector capacity discipline", "statement": "capacity() >= inner_capacity() and size() <= capacity() always; growth is geometric; reserve(n) gives capacity >= n and then no reallocation happens until size exceeds it; shrink_to_fit gives max(size, inner capacity); elements live inline iff capacity equals the internal capacity.", "quantifier": "all operation histories", "why_tests_cant": "The claim ranges over every sequence of operations; a test runs a few chosen sequences.", "anchors": ["include/gul14/SmallVector.h:grow", "include/gul14/SmallVector.h:reserve", "include/gul14/SmallVector.h:shrink_to_fit"]}
{"id": "C31", "title": "SmallVector inserting its own elements", "statement": "push_back(v[i]), insert(pos, v[i]), resize(n, v[i]) and assign(n, v[i]) with a reference to one of the vector's own elements behave as if the element had been copied first (as std::vector guarantees for push_back and insert).", "quantifier": "all vectors and indices", "why_tests_cant": "The claim ranges over every sequence of operations; a test runs a few chosen sequences.", "anchors": ["include/gul14/SmallVector.h:push_back", "include/gul14/SmallVector.h:insert", "include/gul14/SmallVector.h:resize", "include/gul14/SmallVector.h:assign"]}
{"id": "C32", "title": "SmallVector strong guarantee on growth", "statement": "If constructing the new element throws in push_back or emplace_back, or an element copy throws while reserve moves to a larger block, the vector keeps its previous content and no element leaks.", "quantifier": "all vectors and all points at which a constructor may throw", "why_tests_cant": "The claim ranges over every failure point of every operation.", "anchors": ["include/gul14/SmallVector.h:push_back", "include/gul14/SmallVector.h:emplace_back", "include/gul14/SmallVector.h:reserve", "include/gul14/SmallVector.h:uninitialized_move_or_copy"]}
{"id": "C33", "title": "span slices are exact", "statement": "first, last and subspan within bounds view exactly the documented elements, nested slices compose, and the comparison operators are the lexicographic order of the viewed elements.", "quantifier": "all sequences, all offsets and counts in range", "why_tests_cant": "The claim ranges over an unbounded set of inputs; a test samples finitely many of them.", "anchors": ["include/gul14/span.h:first", "include/gul14/span.h:last", "include/gul14/span.h:subspan"]}
{"id": "C34", "title": "optional is a correctly managed maybe-value", "statement": "Any sequence of construction, assignment, emplace, swap, reset on optionals has the observable content of the same operations on abstract maybe-values; at each time exactly the engaged optionals hold a live object; a throwing constructor leaves the documented state.", "quantifier": "all operation histories and throw points", "why_tests_cant": "The claim ranges over every sequence of operations; a test runs a few chosen sequences.", "anchors": ["include/gul14/optional.h:optional"]}
{"id": "C35", "title": "optional comparisons form the none-first order", "statement": "The relational operators between optionals, nullopt and values agree with the order in which the empty optional is below every value, and are mutually consistent.", "quantifier": "all pairs of optionals over an ordered type", "why_tests_cant": "The claim ranges over an unbounded set of inputs; a test samples finitely many of them.", "anchors": ["include/gul14/optional.h:operator=="]}
{"id": "C36", "title": "expected monadic operations obey the sum-type laws", "statement": "map, and_then, map_error, or_else, value_or and the observers act as the corresponding operations on 'value or error'; functor and monad laws hold.", "quantifier": "all expected objects and functions", "why_tests_cant": "The claim ranges over an unbounded set of inputs; a test samples finitely many of them.", "anchors": ["include/gul14/expected.h:and_then_impl", "include/gul14/expected.h:expected_map_impl", "include/gul14/expected.h:map_error_impl", "include/gul14/expected.h:or_else_impl"]}
{"id": "C37", "title": "expected equality and inequality are opposites", "statement": "For all a, b: (a != b) == !(a == b), a == b iff both hold equal values or both hold equal errors - for value types and for void.", "quantifier": "all pairs of expected objects", "why_tests_cant": "The claim ranges over an unbounded set of inputs; a test samples finitely many of them.", "anchors": ["include/gul14/expected.h:operator=="]}
{"id": "C38", "title": "expected assignment, emplace and swap keep a live alternative", "statement": "After assignment, emplace or swap the object holds exactly one live alternative; if a constructor throws, the documented guarantee (previous content kept) holds and nothing is destroyed twice.", "quantifier": "all operation histories and throw points", "why_tests_cant": "The claim ranges over every sequence of operations; a test runs a few chosen sequences.", "anchors": ["include/gul14/expected.h:assign", "include/gul14/expected.h:emplace", "include/gul14/expected.h:swap", "include/gul14/expected.h:construct"]}
{"id": "C39", "title": "bit_set / bit_reset / bit_flip / bit_test change and see exactly one bit", "statement": "bit_set/bit_reset/bit_flip(x, k) differ from x at most in bit k, which becomes 1/0/inverted; bit_test(x, k) is bit k; for all signed and unsigned widths including the sign bit.", "quantifier": "all integer widths, values and bit positions below the width", "why_tests_cant": "The claim ranges over an unbounded set of inputs; a test samples finitely many of them.", "anchors": ["include/gul14/bit_manip.h:bit_set", "include/gul14/bit_manip.h:bit_reset", "include/gul14/bit_manip.h:bit_flip", "include/gul14/bit_manip.h:bit_test"]}
{"id": "C40", "title": "gcd is the greatest common divisor", "statement": "gcd(a,b) is the non-negative greatest common divisor, 0 only for (0,0), for every a, b representable in the common type whose result is representable; it terminates.", "quantifier": "all integers of all widths and signednesses", "why_tests_cant": "The claim ranges over an unbounded set of inputs; a test samples finitely many of them.", "anchors": ["include/gul14/gcd_lcm.h:gcd"]}
{"id": "C41", "title": "lcm is the least common multiple", "statement": "lcm(a,b) is the least common multiple (0 for (0,0)), positive otherwise, whenever it is representable.", "quantifier": "all integers of all widths and signednesses", "why_tests_cant": "The claim ranges over an unbounded set of inputs; a test samples finitely many of them.", "anchors": ["include/gul14/gcd_lcm.h:lcm"]}
{"id": "C42", "title": "clamp selects by comparison", "statement": "clamp(v, lo, hi) with lo <= hi returns a reference to lo if v < lo, to hi if hi < v, to v otherwise; the comparator overload agrees with the operator overload.", "quantifier": "all values of every ordered type, all strict weak orders", "why_tests_cant": "The claim ranges over an unbounded set of inputs; a test samples finitely many of them.", "anchors": ["include/gul14/num_util.h:clamp"]}
{"id": "C43", "title": "within_abs decides |a-b| <= |tol|", "statement": "within_abs(a, b, tol) is true iff |a-b| <= |tol|, symmetric in a and b, for all integer types and values.", "quantifier": "all integers of all widths and signednesses", "why_tests_cant": "The claim ranges over an unbounded set of inputs; a test samples finitely many of them.", "anchors": ["include/gul14/num_util.h:within_abs"]}
{"id": "C44", "title": "within_orders is symmetric and scale-correct", "statement": "within_orders(a, b, o) is symmetric in a and b and true iff |a-b| < max(|a|,|b|)/10^o, for integers as well (or both are equal).", "quantifier": "all numbers of all arithmetic types", "why_tests_cant": "The claim ranges over an unbounded set of inputs; a test samples finitely many of them.", "anchors": ["include/gul14/num_util.h:within_orders"]}
{"id": "C45", "title": "median is the middle of the sorted data", "statement": "median returns the middle element of the sorted data for odd sizes and the mean of the two middle ones for even sizes; it is independent of the order of the data and lies between minimum and maximum; mean is sum / count.", "quantifier": "all non-empty data sets, all permutations", "why_tests_cant": "The claim ranges over an unbounded set of inputs; a test samples finitely many of them.", "anchors": ["include/gul14/statistics.h:median", "include/gul14/statistics.h:mean"]}
{"id": "C46", "title": "minimum / maximum / min_max skip NaN", "statement": "minimum, maximum and min_max return the least / greatest non-NaN element, NaN iff every element is NaN or there is none, and min_max agrees with the two single functions.", "quantifier": "all data sets with NaNs at arbitrary places", "why_tests_cant": "The claim ranges over an unbounded set of inputs; a test samples finitely many of them.", "anchors": ["include/gul14/statistics.h:minimum", "include/gul14/statistics.h:maximum", "include/gul14/statistics.h:min_max"]}
{"id": "C47", "title": "remove_outliers removes the k farthest-from-mean elements one by one", "statement": "remove_outliers(c, k) removes min(k, size) elements, keeps the order of the others, and every removed element is (at its removal) of maximal distance from the mean of the remaining ones.", "quantifier": "all data sets and counts", "why_tests_cant": "The claim ranges over an unbounded set of inputs; a test samples finitely many of them.", "anchors": ["include/gul14/statistics.h:remove_outliers"]}
{"id": "C48", "title": "standard deviation and rms formulas", "statement": "standard_deviation's sigma squared is the sum of squared deviations divided by n-1 and its mean the arithmetic mean; it is translation-invariant, and zero iff all elements are equal; rms squared is the mean of the squares.", "quantifier": "all data sets of at least two elements", "why_tests_cant": "The claim ranges over an unbounded set of inputs; a test samples finitely many of them.", "anchors": ["include/gul14/statistics.h:standard_deviation", "include/gul14/statistics.h:rms"]}
{"id": "C49", "title": "thread pool queue never exceeds its capacity", "statement": "At no time are more tasks pending than the capacity given at construction, and add_task throws (leaving the queue unchanged) exactly when the queue is full.", "quantifier": "all schedules of any number of client and worker threads", "why_tests_cant": "The claim ranges over every interleaving of threads, clock reading and wake-up choice; a test observes the few schedules the OS happens to produce.", "anchors": ["include/gul14/ThreadPool.h:add_task", "src/ThreadPool.cc:is_full"]}
{"id": "C50", "title": "each accepted task runs at most once, and is never lost", "statement": "Every task accepted by add_task is at each time exactly one of pending, running, finished or canceled/dropped; no task is started twice.", "quantifier": "all schedules", "why_tests_cant": "The claim ranges over every interleaving of threads, clock reading and wake-up choice; a test observes the few schedules the OS happens to produce.", "anchors": ["src/ThreadPool.cc:perform_work", "include/gul14/ThreadPool.h:add_task"]}
{"id": "C51", "title": "no task starts before its start time", "statement": "A task added with a start time is started only when the clock has reached that time.", "quantifier": "all schedules and clock behaviours", "why_tests_cant": "The claim ranges over every interleaving of threads, clock reading and wake-up choice; a test observes the few schedules the OS happens to produce.", "anchors": ["src/ThreadPool.cc:perform_work"]}
{"id": "C52", "title": "cancellation is final and exact", "statement": "If cancel returns true the task has not run and never will; if it returns false the task is not pending; cancel_pending_tasks empties the queue and returns how many tasks it removed; running tasks are unaffected.", "quantifier": "all schedules", "why_tests_cant": "The claim ranges over every interleaving of threads, clock reading and wake-up choice; a test observes the few schedules the OS happens to produce.", "anchors": ["src/ThreadPool.cc:cancel_pending_task", "src/ThreadPool.cc:cancel_pending_tasks", "include/gul14/ThreadPool.h:TaskHandle::cancel"]}
{"id": "C53", "title": "tasks start in queue order among those due", "statement": "Whenever a worker picks a task, it is the earliest added pending task whose start time has come; with a single worker and no delays tasks run in the order they were added.", "quantifier": "all schedules", "why_tests_cant": "The claim ranges over every interleaving of threads, clock reading and wake-up choice; a test observes the few schedules the OS happens to produce.", "anchors": ["src/ThreadPool.cc:perform_work"]}
{"id": "C54", "title": "no lost wake-up in the thread pool", "statement": "While shutdown has not been requested and a task is pending, some worker thread is active, has been woken, is about to be woken, or sleeps with a timeout not later than the earliest start time: the pool can never sleep forever with work in the queue.", "quantifier": "all schedules including spurious wake-ups", "why_tests_cant": "The claim ranges over every interleaving of threads, clock reading and wake-up choice; a test observes the few schedules the OS happens to produce.", "anchors": ["src/ThreadPool.cc:perform_work", "include/gul14/ThreadPool.h:add_task"]}
{"id": "C55", "title": "a due task does not wait while a worker sleeps indefinitely", "statement": "If a task is due and a worker thread is idle, a worker is about to look at the queue (work conservation).", "quantifier": "all schedules", "why_tests_cant": "The claim ranges over every interleaving of threads, clock reading and wake-up choice; a test observes the few schedules the OS happens to produce.", "anchors": ["src/ThreadPool.cc:perform_work"]}
{"id": "C56", "title": "pool introspection is consistent", "statement": "The running ids and names always belong together pairwise, no more tasks run than there are threads, no task is both running and pending, ids are never reused, is_idle is true iff nothing is pending or running.", "quantifier": "all schedules", "why_tests_cant": "The claim ranges over every interleaving of threads, clock reading and wake-up choice; a test observes the few schedules the OS happens to produce.", "anchors": ["src/ThreadPool.cc:get_task_state", "src/ThreadPool.cc:is_idle", "src/ThreadPool.cc:get_running_task_names"]}
{"id": "C57", "title": "pool destruction drains the workers", "statement": "After shutdown is requested no further task starts once the workers have seen it, every worker ends after finishing at most its current task, and no worker remains asleep.", "quantifier": "all schedules", "why_tests_cant": "The claim ranges over every interleaving of threads, clock reading and wake-up choice; a test observes the few schedules the OS happens to produce.", "anchors": ["src/ThreadPool.cc:~ThreadPool", "src/ThreadPool.cc:perform_work"]}
{"id": "C58", "title": "task handles report the true task state", "statement": "TaskHandle::get_state and is_complete report pending, running, complete or canceled according to what happened to the task, at any point of the task's and handle's history.", "quantifier": "all histories of pool and handle operations", "why_tests_cant": "The claim ranges over every sequence of operations; a test runs a few chosen sequences.", "anchors": ["include/gul14/ThreadPool.h:TaskHandle"]}
{"id": "C59", "title": "Trigger wait returns only when triggered, and does not miss a level", "statement": "wait() returns only if the trigger is high when it returns; as long as the trigger stays high no waiter stays asleep without a pending notification; wait_for/wait_until return the trigger's state.", "quantifier": "all schedules including spurious wake-ups and timeouts", "why_tests_cant": "The claim ranges over every interleaving of threads, clock reading and wake-up choice; a test observes the few schedules the OS happens to produce.", "anchors": ["src/Trigger.cc:wait", "src/Trigger.cc:trigger", "include/gul14/Trigger.h:wait_for"]}
{"id": "C60", "title": "a trigger resumes every waiting thread", "statement": "trigger() causes any waiting threads to resume (as documented), also if it is followed by reset().", "quantifier": "all schedules", "why_tests_cant": "The claim ranges over every interleaving of threads, clock reading and wake-up choice; a test observes the few schedules the OS happens to produce.", "anchors": ["src/Trigger.cc:trigger", "src/Trigger.cc:reset"]}
{"id": "C61", "title": "destroying a Trigger is safe for waiting threads", "statement": "Execution of waiting threads is resumed if the Trigger is destroyed, without them touching the destroyed object.", "quantifier": "all schedules", "why_tests_cant": "The claim ranges over every interleaving of threads, clock reading and wake-up choice; a test observes the few schedules the OS happens to produce.", "anchors": ["src/Trigger.cc:~Trigger", "src/Trigger.cc:wait"]}
{"id": "C62", "title": "interruptible sleep reports interruption", "statement": "sleep(duration, trigger) returns false iff the trigger was high when the sleep ended; it does not sleep past a standing trigger.", "quantifier": "all schedules", "why_tests_cant": "The claim ranges over every interleaving of threads, clock reading and wake-up choice; a test observes the few schedules the OS happens to produce.", "anchors": ["include/gul14/time_util.h:sleep"]}
{"id": "C63", "title": "finally runs each action exactly once", "statement": "Every action given to finally() is executed exactly once, when the last FinalAction object owning it is destroyed - never zero times, never twice - under any sequence of moves and scope exits.", "quantifier": "all histories of creation, move construction, move assignment and destruction", "why_tests_cant": "The claim ranges over every sequence of operations; a test runs a few chosen sequences.", "anchors": ["include/gul14/finalizer.h:FinalAction", "include/gul14/finalizer.h:finally"]}
{"id": "C64", "title": "type_name extracts the template argument", "statement": "type_name<T>() returns exactly the spelling of T inside the compiler-generated function signature.", "quantifier": "all type spellings", "why_tests_cant": "The claim ranges over an unbounded set of inputs; a test samples finitely many of them.", "anchors": ["include/gul14/type_name.h:type_name"]}
{"id": "C65", "title": "cat arguments survive copying", "statement": "A ConvertingStringView copied from another one shows the same text for as long as the copy lives.", "quantifier": "all argument values, all copy histories", "why_tests_cant": "The claim ranges over every sequence of operations; a test runs a few chosen sequences.", "anchors": ["include/gul14/cat.h:ConvertingStringView"]}
{"id": "C66", "title": "a moved-from SlidingBuffer is valid", "statement": "After a resizable SlidingBuffer has been moved from, its member functions still behave: size() does not exceed capacity(), at() throws for missing elements, resize() and clear() make it usable again.", "quantifier": "all buffers in all reachable states", "why_tests_cant": "The claim ranges over every sequence of operations; a test runs a few chosen sequences.", "anchors": ["include/gul14/SlidingBuffer.h:SlidingBuffer"]}
{"id": "C67", "title": "optional references rebind and never modify their target", "statement": "Constructing, assigning, emplacing, swapping and resetting optional<T&> objects changes only what they refer to, never an object referred to; the observers see the current value of the object, and writing through *o changes the object for every reference to it.", "quantifier": "all sequences of operations and all heaps", "why_tests_cant": "The claim ranges over every sequence of operations and every aliasing pattern; a test runs a few.", "anchors": ["include/gul14/optional.h:optional<T&>"]}
{"id": "C68", "title": "writing a string view to a stream pads like std::string", "statement": "operator<< for string_view writes exactly what the same std::string would write: the characters, padded with the stream's fill character to the stream's width on the side given by the adjustment, and resets the width.", "quantifier": "all string views and all stream widths, fill characters and adjustments", "why_tests_cant": "The fill loop writes in chunks of eight; tests use a handful of widths, the claim is for every width and fill.", "anchors": ["include/gul14/string_view.h: operator<<, detail::sv_insert_aligned, detail::sv_insert_fill_chars"]}
{"id": "C69", "title": "hexdump_stream helper objects survive copying, moving and the end of the temporary", "statement": "An object returned by hexdump_stream for a temporary container can be copied, moved, assigned and kept; writing any object that has not been moved from to a stream dumps the original data and prompt and never reads a dead container.", "quantifier": "all histories of creating, copying, moving, assigning and destroying helper objects", "why_tests_cant": "A dangling iterator usually still reads the old values; tests cannot tell and cannot cover all histories.", "anchors": ["include/gul14/hexdump.h: HexdumpParameterForward, regenerate_iterators, hexdump_stream(ContainerT&&)"]}
{"id": "C70", "title": "a task handle delivers the outcome of its own task, once", "statement": "TaskHandle::get_result returns exactly the value its own task returned, or rethrows exactly the exception its task threw, never before the task function has ended; it delivers a result at most once, and a finished task's result is available without blocking.", "quantifier": "all schedules, all tasks, all histories of handle operations", "why_tests_cant": "The claim ranges over every interleaving and every history of handle operations; a test observes a few schedules.", "anchors": ["include/gul14/ThreadPool.h:TaskHandle::get_result", "include/gul14/ThreadPool.h:add_task"]}
{"id": "C71", "title": "dates and day counts correspond one to one", "statement": "Converting an existing year_month_day to sys_days or local_days gives the number of days one counts from 1970-01-01, day by day in the proleptic Gregorian calendar; converting a day count in the representable years back gives that date; both directions are inverse. A day field beyond the month counts on from the first of the month.", "quantifier": "all dates with years -32768 to 32767, all day counts, all values of the fields", "why_tests_cant": "There are 24 million representable days and the arithmetic uses eras, unsigned wrap-around and magic constants; agreement with the calendar is a statement about every one of them.", "anchors": ["include/gul14/date.h:year_month_day::to_days", "include/gul14/date.h:year_month_day::from_days"]}
{"id": "C72", "title": "ok() tells whether a date exists", "statement": "year_month_day::ok() is true exactly for the dates of the calendar (the year -32768 excepted); month_day::ok() exactly for the days that exist in some year; year_month_day_last names the last day of the month; is_leap() follows the Gregorian rule.", "quantifier": "all values of year, month and day fields", "why_tests_cant": "All field values, including nonsense ones, must be classified correctly.", "anchors": ["include/gul14/date.h:year_month_day::ok", "include/gul14/date.h:month_day::ok", "include/gul14/date.h:year_month_day_last::day", "include/gul14/date.h:year::is_leap"]}
{"id": "C73", "title": "weekdays follow each other", "statement": "The weekday of day 0 is Thursday and the weekday of the next day is the next weekday, for every day count of int, also negative; adding n days to a weekday gives the weekday n days later; the difference of two weekdays is the number of days 0 to 6 from the second to the next first.", "quantifier": "all 2^32 day counts, all weekdays, all numbers of days", "why_tests_cant": "The code relies on 2^32 mod 7 for negative counts; tests sample a few days.", "anchors": ["include/gul14/date.h:weekday::weekday_from_days", "include/gul14/date.h:operator+(weekday, days)", "include/gul14/date.h:operator-(weekday, weekday)"]}
{"id": "C74", "title": "month arithmetic", "statement": "Adding months to a month or a year_month moves it by exactly that many months, carrying into the year; the difference of two year_months is the number of months between them and leads from one to the other; adding months or years to a date keeps the day, and the result exists exactly if the target month is long enough.", "quantifier": "all months, year_months, dates and all counts that do not overflow", "why_tests_cant": "Carries for negative and large counts and wrap-around of unsigned differences must be right for all values.", "anchors": ["include/gul14/date.h:operator+(month, months)", "include/gul14/date.h:operator-(month, month)", "include/gul14/date.h:operator+(year_month, months)", "include/gul14/date.h:operator-(year_month, year_month)", "include/gul14/date.h:operator+(year_month_day, months)"]}
{"id": "C75", "title": "the n-th and the last weekday of a month", "statement": "A day converted to year_month_weekday says which weekday of the month it is, counting them in the month, and converts back to the same day; ok() is true exactly if the month has so many of these weekdays; year_month_weekday_last converts to the last one.", "quantifier": "all days in the representable years, all field values", "why_tests_cant": "Depends on where months begin in the week, for every month of 65000 years.", "anchors": ["include/gul14/date.h:year_month_weekday::from_days", "include/gul14/date.h:year_month_weekday::to_days", "include/gul14/date.h:year_month_weekday::ok", "include/gul14/date.h:year_month_weekday_last::to_days"]}
{"id": "C76", "title": "dates are ordered like the days they name", "statement": "For existing dates x < y holds exactly if the day count of x is smaller than that of y, and x == y exactly if they are equal; for arbitrary field values the comparison is a strict total order.", "quantifier": "all pairs (triples) of dates", "why_tests_cant": "Pairs of dates cannot be enumerated.", "anchors": ["include/gul14/date.h:operator<(year_month_day, year_month_day)", "include/gul14/date.h:operator==(year_month_day, year_month_day)"]}
{"id": "C77", "title": "hh_mm_ss splits a duration exactly", "statement": "hh_mm_ss has hours >= 0, minutes and seconds in 0..59, subseconds below one second and the sign of the duration; the fields add up to the absolute value and to_duration() returns the duration (truncated towards zero to microseconds if a tick has no decimal fraction of 18 digits); the number of fractional digits is the smallest exact one; in_conventional_range() holds exactly from 0 up to a day; make12 and make24 are inverse.", "quantifier": "all durations of all tick lengths", "why_tests_cant": "All durations and all periods, including negative and non-decimal ones.", "anchors": ["include/gul14/date.h:hh_mm_ss", "include/gul14/date.h:decimal_format_seconds", "include/gul14/date.h:make12", "include/gul14/date.h:make24"]}
{"id": "C78", "title": "rounding of durations", "statement": "floor<To> gives the largest count of the new unit not exceeding the duration, ceil<To> the smallest not below it, trunc<To> goes towards zero, round<To> gives the nearest count and the even one of two equally near; whole multiples convert exactly.", "quantifier": "all integer durations and all ratios of units", "why_tests_cant": "Negative durations and ties for arbitrary ratios cannot be enumerated.", "anchors": ["include/gul14/date.h:floor", "include/gul14/date.h:ceil", "include/gul14/date.h:round", "include/gul14/date.h:trunc", "include/gul14/date.h:abs"]}
{"id": "C79", "title": "dates and times written to a stream can be read by eye and are unambiguous", "statement": "operator<< writes an existing date as year-mm-dd, a point in time as date, space, hh:mm:ss and (for sub-second units) a point and all fractional digits; the numbers denote the fields of the date of that day and the time since midnight, exactly; different points in time give different text.", "quantifier": "all dates; all points in time in the years -32767 to 32767 in all units with finite decimal fraction", "why_tests_cant": "Padding, negative times before 1970 and fractions must be right for every value.", "anchors": ["include/gul14/date.h:operator<<(basic_ostream, year_month_day)", "include/gul14/date.h:operator<<(basic_ostream, sys_time)", "include/gul14/date.h:operator<<(basic_ostream, hh_mm_ss)", "include/gul14/date.h:operator<<(basic_ostream, year)"]}
{"id": "C80", "title": "a variant always holds exactly one live alternative or is valueless", "statement": "After any history of constructions, assignments, emplacements, swaps and destructions, with exceptions thrown at arbitrary element operations, index() names the one alternative that is alive; it is variant_npos and valueless_by_exception() is true if and only if none is alive. No alternative is used before it is constructed or after it is destroyed, none is destroyed twice and none is lost. If no element operation throws, no variant is ever valueless.", "quantifier": "all lists of alternative types with any combination of trivial, available and noexcept operations; all histories; all points at which an element operation throws", "why_tests_cant": "An exception can occur at every element operation of every history, and the overloads compiled depend on the traits of all alternatives.", "anchors": ["include/gul14/variant.h:variant", "include/gul14/variant.h:variant::operator=", "include/gul14/variant.h:variant::emplace", "include/gul14/variant.h:variant::swap", "include/gul14/variant.h:index", "include/gul14/variant.h:valueless_by_exception"]}
{"id": "C81", "title": "exception guarantees of variant", "statement": "Every operation on variants either has its effect or throws; after a throw the contents are those the standard allows: constructors leave no object, an assignment that keeps the alternative leaves some value of it, an assignment of a value or a copy that changes the alternative to one that can be moved without exceptions has no effect, emplace leaves the variant valueless. Other variants are not changed. If all alternatives are nothrow movable, only emplace can make a variant valueless. A noexcept operation never terminates the program because of an element operation declared noexcept(false).", "quantifier": "all reachable states, operations and points at which an element operation throws", "why_tests_cant": "The point at which the exception occurs, the traits of the types and the previous contents multiply.", "anchors": ["include/gul14/variant.h:variant::operator=", "include/gul14/variant.h:variant::emplace", "include/gul14/variant.h:detail_variant::assign_alt", "include/gul14/variant.h:detail_variant::generic_assign"]}
{"id": "C82", "title": "swap of variants", "statement": "swap exchanges the contents of two variants whatever they hold. If it throws although one of the contents can be moved without exceptions, both variants keep their alternatives and that one keeps its value.", "quantifier": "all pairs of variants, including valueless ones and a variant with itself; all points at which a move throws", "why_tests_cant": "Throwing at each of the three moves with each combination of alternatives cannot be enumerated for all types.", "anchors": ["include/gul14/variant.h:variant::swap"]}
{"id": "C83", "title": "comparison of variants is the lexicographic order", "statement": "==, !=, <, >, <=, >= of variants agree with the order in which valueless variants come first, then the alternatives in the order of their index, then the values; it is a strict linear order if those of the alternatives are. The operator of the same name of the alternative is used. All monostates are equal.", "quantifier": "all pairs of variants, all alternatives and their operators", "why_tests_cant": "Consistency of six operators is a statement about all pairs and triples.", "anchors": ["include/gul14/variant.h:operator==", "include/gul14/variant.h:operator!=", "include/gul14/variant.h:operator<", "include/gul14/variant.h:operator>", "include/gul14/variant.h:operator<=", "include/gul14/variant.h:operator>=", "include/gul14/utility.h:monostate"]}
{"id": "C84", "title": "access and visitation of variants", "statement": "get returns the value iff the variant holds the alternative and throws bad_variant_access otherwise, get_if returns null instead; access by type is access by the unique index of that type. visit calls the visitor once, with the alternatives that the variants hold, in order, and throws bad_variant_access without calling it if any of them is valueless; this holds for any number of variants and of alternatives.", "quantifier": "all variants, indices, visitors; any number of variants", "why_tests_cant": "The dispatch over nested switches of 32 cases has to be right for each combination of indices.", "anchors": ["include/gul14/variant.h:get", "include/gul14/variant.h:get_if", "include/gul14/variant.h:holds_alternative", "include/gul14/variant.h:visit", "include/gul14/variant.h:detail_variant::find_index"]}
{"id": "C85", "title": "equal variants have equal hashes", "statement": "std::hash gives the same value for two variants that compare equal, provided the hashes of the alternatives do so.", "quantifier": "all pairs of variants", "why_tests_cant": "A statement on all pairs of equal values.", "anchors": ["include/gul14/variant.h:std::hash<variant>"]}
{"id": "C86", "title": "split at a regular expression", "statement": "split(text, regex) returns for every text and every regular expression the pieces between the successive leftmost matches: one piece more than matches, the text is restored by putting the matches back between the pieces, no piece contains a non-empty match, and it ends also for expressions that match the empty string. For an expression that matches just one string the result is that of split(text, string).", "quantifier": "all texts, all regular expressions (any function that finds leftmost matches)", "why_tests_cant": "Empty matches, adjacent matches and matches at the ends of the text combine in unboundedly many ways.", "anchors": ["include/gul14/join_split.h:split(string_view, const std::regex&)"]}
{"id": "C87", "title": "to_number for floating-point types is accurate to a few units in the last place", "statement": "For every numeral that denotes zero or a number within the range of the type, to_number returns a number of the type close to the denoted one: for float within half a unit in the last place and a tiny bit (relative 2^-24 + 2^-51), for double within 3.03 * 2^-53, for long double within 22.02 * 2^-64 (41.01 * 2^-64 for more than 19 significant digits) relative error; subnormal results within half of the smallest number more. A number too large for the type gives infinity.", "quantifier": "all numerals: any number of digits, any position of the decimal point, any exponent within the range", "why_tests_cant": "The errors of several rounded operations combine differently for each of the unboundedly many numerals; tests compare a few of them with a tolerance.", "anchors": ["include/gul14/to_number.h:to_unsigned_float", "include/gul14/to_number.h:to_normalized_float", "src/to_number.cc:pow10"]}
{"id": "C88", "title": "to_number reads representable numbers exactly", "statement": "A numeral that denotes a number of the floating-point type (for instance a small integer) is read as exactly that number.", "quantifier": "all numerals that denote a number of the type", "why_tests_cant": "Each of the more than 2^64 numbers has unboundedly many spellings.", "anchors": ["include/gul14/to_number.h:to_unsigned_float", "include/gul14/to_number.h:to_normalized_float", "src/to_number.cc:pow10"]}
{"id": "C89", "title": "within_ulp counts floating-point steps", "statement": "within_ulp(a, b, ulp) is true exactly for equal numbers and for numbers at most ulp floating-point steps apart; it is symmetric; NaN is within no distance of anything and an infinity only of itself.", "quantifier": "all numbers of float, double and long double, all values of ulp", "why_tests_cant": "There are 2^64 numbers and more, and the spacing changes at each power of two and at the border to the subnormal numbers.", "anchors": ["include/gul14/num_util.h:within_ulp"]}
{"id": "C90", "title": "format writes what the format string asks for", "statement": "format(fmt, x) writes the characters of fmt, with every conversion (%Y, %m, %G, %V, %U, %T, ...) replaced by the text that the standard defines for it, about the date and time of x and in the calendar of C71 (including ISO 8601 weeks and weeks counted from the first Sunday or Monday); it throws exactly if a conversion asks for something that x does not have (a time, a date, a time zone).", "quantifier": "all formats, all time points and dates of the years -32765 to 32766, all nonnegative durations, all resolutions, all facets of the locale", "why_tests_cant": "Formats are unbounded, and each conversion depends on the calendar, with exceptions at the borders of years and centuries.", "anchors": ["include/gul14/date.h:to_stream", "include/gul14/date.h:format", "include/gul14/date.h:extract_weekday", "include/gul14/date.h:extract_month", "include/gul14/date.h:fields"]}
{"id": "C91", "title": "format of negative durations", "statement": "A negative duration is written like its absolute value, with one minus sign: in front of %T and %Q, or of the first of the conversions %H, %I, %M, %S in the format.", "quantifier": "all formats, all durations, all resolutions", "why_tests_cant": "The sign is a state of the loop over the format.", "anchors": ["include/gul14/date.h:to_stream", "include/gul14/date.h:hh_mm_ss"]}
{"id": "C92", "title": "parse reads back what format writes", "statement": "If x is written by format(fmt, x) and the format says which date it is (year, month and day; year and day of the year; year, week and weekday; ISO year, week and weekday), parse(fmt, ...) reads the whole text without failure and gives x back: the same date, the hours, minutes and seconds that the format mentions, the offset from UTC if the format has %z (subtracted for time points, reported for local times), rounded to the nearest value of the type.", "quantifier": "all formats of literal characters, white space, numeric conversions, and (for locales that read the names they write) names of weekdays and months, the twelve-hour clock with am/pm and zone abbreviations; all dates and time points of four-digit years, all durations below 100 hours, all decimal resolutions, all offsets below 100 hours", "why_tests_cant": "Formats and values are unbounded; the conversions interact (a date may be given several times over, in several calendars, and all must agree).", "anchors": ["include/gul14/date.h:from_stream", "include/gul14/date.h:parse", "include/gul14/date.h:format", "include/gul14/date.h:read_signed", "include/gul14/date.h:read_unsigned"]}
{"id": "C93", "title": "parse accepts only texts that say the result", "statement": "If parse(fmt, x) succeeds, then the text that was consumed consists of one piece for each part of the format - the characters of the format, any amount of white space for white space, and for each conversion a number with at most as many digits as the conversion allows - and all these numbers are those of the result: year, century, month, day, weekday, week numbers and day of the year are those of the date stored in x, hours, minutes and seconds those of the time (in range: below 24, 60 and 60 for time points), what the format does not mention is zero, and the stored value is the nearest to date plus time minus the offset that was read. Contradictory texts (a wrong weekday, two different years, ...) are rejected.", "quantifier": "all texts, all formats of literal characters, white space and numeric conversions, all decimal resolutions and target types", "why_tests_cant": "Texts and formats are unbounded; acceptance of a wrong text shows only for particular combinations of conversions and numbers.", "anchors": ["include/gul14/date.h:from_stream", "include/gul14/date.h:parse", "include/gul14/date.h:read_signed", "include/gul14/date.h:read_unsigned", "include/gul14/date.h:read_long_double", "include/gul14/date.h:checked_set"]}
{"id": "C94", "title": "parse is safe for every text", "statement": "Whatever the text is, parse(fmt, x) for dates and other calendar types, time points and durations ends, throws nothing (unless the stream is set to), and has defined behaviour: it either stores a value or sets failbit. None of the sums of days, hours, minutes, seconds and the offset from UTC overflows.", "quantifier": "all texts, all formats of literal characters, white space and numeric conversions, all decimal resolutions and target types", "why_tests_cant": "Texts and formats are unbounded; overflow happens only for particular numbers in particular places.", "anchors": ["include/gul14/date.h:from_stream", "include/gul14/date.h:parse", "include/gul14/date.h:read_signed", "include/gul14/date.h:read_unsigned", "include/gul14/date.h:read_long_double", "include/gul14/date.h:round_i"]}
{"id": "C95", "title": "SlidingBuffer stays valid and keeps its elements if an exception is thrown", "statement": "If push_back(), push_front(), clear() or resize() ends with an exception - because constructing, assigning or swapping an element throws, or because memory cannot be allocated - the buffer remains valid and usable: size() is at most capacity() and size, at, operator[], front, back, the iterators, empty and filled agree with each other. A call that throws leaves the elements as they were (clear() leaves the buffer empty). Pushing a reference to an element of the buffer itself pushes a copy of it.", "quantifier": "all histories of calls on both buffer classes, in which any call may fail at any point", "why_tests_cant": "Failures may occur at any step of any history; tests can inject only a few.", "anchors": ["include/gul14/SlidingBuffer.h:push_back", "include/gul14/SlidingBuffer.h:push_front", "include/gul14/SlidingBuffer.h:clear", "include/gul14/SlidingBuffer.h:change_capacity", "include/gul14/SlidingBuffer.h:SlidingBufferExposed::resize"]}
{"id": "C96", "title": "C strings, characters and std::string as operands of string_view", "statement": "A view of a C string shows exactly the characters before the terminating zero, and nothing past the zero is read; a pointer with a length and a std::string are viewed in full, zeros included. compare(), the six comparison operators (operand on either side) and the searches give the same result for these operands as for a view of the same characters; without a position a search covers the whole view. Conversion to std::string, += and + yield exactly the viewed characters at the place where they are written. swap() exchanges two views.", "quantifier": "all views, strings, characters, positions, counts and memory contents", "why_tests_cant": "Memory behind the terminator and strings with embedded zeros vary without bound, and there are dozens of overloads.", "anchors": ["include/gul14/string_view.h:char_traits::length", "include/gul14/string_view.h:basic_string_view", "include/gul14/string_view.h:operator==", "include/gul14/string_view.h:operator+="]}
{"id": "C97", "title": "Statistics in floating-point arithmetic", "statement": "With result type float, double or long double, mean, rms and standard_deviation of finite data whose sum (of squares) does not overflow are finite, and their errors are bounded by a number of rounding errors proportional to the number of elements; the mean of values whose sum is exact (integers of moderate size) is the exact mean rounded once and lies between the smallest and the largest value; the median of an odd number of elements is the middle one and that of an even number is the correctly rounded mean of the middle two unless these are extremely small; remove_outliers takes out elements of greatest distance from the mean up to rounding. Finite data never give NaN; a NaN in the data, or no data, always do. The mean need not lie between the smallest and the largest value otherwise, and sums may overflow although the mean is representable.", "quantifier": "all finite sequences of floating-point or integer values of the stated size, all three result types, all implementations of std::pow that are accurate to one unit in the last place, all implementations of std::nth_element", "why_tests_cant": "rounding errors depend on every bit of every element; no test set covers the sequences of doubles", "anchors": ["include/gul14/statistics.h: mean, rms, median, standard_deviation, remove_outliers"]}
{"id": "C98", "title": "Partial dates and the division syntax", "statement": "Every way of writing a date with slashes - year/month/day, month/day/year, day/month/year, year/(month/day) - that compiles gives the same date, whether the parts are given by typed values or by numbers in range, and for days given by number, as last, as weekday[n] or as weekday[last]; which expressions are dates is exactly described. The six comparison operators of day, month, year, year_month, month_day, month_day_last, year_month_day_last and year_month_day are those of a total order that agrees with ==; month_day is ordered as the days of any year, year_month_day_last as the days it names; ok year_month_weekday(_last) values are equal if and only if they name the same day. ok() of month_weekday(_last) says whether the day exists in some year. ++ and -- undo each other and go round the year and the week; adding months or years to year_month, year_month_day_last and year_month_weekday(_last) moves the month in the calendar, keeps the rest and is undone by subtraction.", "quantifier": "all operands of the slash operator, all int values, all values of the calendar classes, all durations that stay within the representable years", "why_tests_cant": "forty overloads with 7^3 operand combinations and all integers; order laws speak about all pairs and triples", "anchors": ["include/gul14/date.h: operator/, day, month, year, weekday, year_month, month_day, month_day_last, month_weekday, month_weekday_last, year_month_day_last, year_month_weekday, year_month_weekday_last"]}
{"id": "C99", "title": "An expected is copyable and movable as its types are", "statement": "expected<T, E> can be copy constructed if and only if T (or void) and E can, and copy assigned if and only if both can be copy constructed and copy assigned; this then copies the value or error, or the bytes if and only if both types are trivially copyable in this way. Moving an expected whose types can be moved moves the value or error. This fails when rvalues of both types are constructed (assigned) trivially but copying is not trivial for both: then std::move copies, or does not compile although the type traits say that it does.", "quantifier": "all types T (including void) and E, by the state of their copy and move operations (deleted, trivial, user-provided, no move) and destructors", "why_tests_cant": "which operation is taken depends on five partial specialisations of five base classes; a test suite has a handful of types out of tens of thousands of combinations", "anchors": ["include/gul14/expected.h: expected, expected_storage_base, expected_copy_base, expected_move_base, expected_copy_assign_base, expected_move_assign_base, expected_delete_ctor_base, expected_delete_assign_base"]}
{"id": "C100", "title": "ThreadPool when resources run out", "statement": "If memory runs out in add_task or in the functions that return the names of tasks, or if the function object throws when it is moved, the call ends with an exception, the pool is as if it had not been called, and all other guarantees of the pool go on holding. The constructor reports invalid arguments, lack of memory and a failure to start a thread by an exception. No lack of resources ends the program. The last two fail: if one of the threads but the first cannot be started, or if the memory for the list of running tasks runs out in a worker, std::terminate is called.", "quantifier": "all states of the pool, callers, schedules, and points of failure", "why_tests_cant": "failures at each allocation in each state and schedule cannot be provoked by tests", "anchors": ["include/gul14/ThreadPool.h: ThreadPool::add_task", "src/ThreadPool.cc: ThreadPool::ThreadPool, ThreadPool::perform_work, ThreadPool::get_pending_task_names"]}
{"id": "C101", "title": "Which thread destroys a ThreadPool", "statement": "A pool is destroyed when the last shared pointer to it goes, not before, by the thread that had it; this thread can lock the mutex in the destructor, and it is not one of the pool's own workers. The last part fails although no task ever owns a shared pointer for longer than a call: if the outside thread destroys its pointer while a task is in add_task or in a function of a handle, the temporary pointer inside this call can be the last one, and the destructor runs in the worker; in add_task the worker owns the mutex, which the destructor locks again. The same happens to a function object that owns the last pointer.", "quantifier": "all interleavings of all threads and tasks, all numbers of shared pointers", "why_tests_cant": "the window between two instructions of another thread is not under the control of a test", "anchors": ["include/gul14/ThreadPool.h: ThreadPool::add_task, TaskHandle, TaskHandle::cancel, TaskHandle::get_state", "src/ThreadPool.cc: ThreadPool::~ThreadPool, lock_pool_or_throw, ThreadPool::perform_work"]}
{"id": "C102", "title": "Calendar values and durations as text", "statement": "A value of a calendar class is written as its fields from the largest to the smallest, separated by /: the year with its sign and at least four digits, the month and the weekday by name (or as a number if there is no such month or weekday), the day with two digits, the number of a weekday or last in brackets; year_month_day as year-month-day in numbers. Values that are not valid dates are followed by a note. Writing a value of a calendar class (day, month, year, weekday, and all their combinations) to a stream works for every value, and two values of a class give the same text if and only if they are equal, whether they are valid dates or not, as long as the month and weekday names of the locale differ from each other and are words. A duration is written as its count and its unit: s, min, h, d, the SI prefix and s, or the ratio in brackets and s; durations with different counts or different periods are never written in the same way. The texts of the ratios fill exactly the arrays that are computed for them at compile time.", "quantifier": "all values of all fields, all integer counts, all periods, all locales with distinct names that are words", "why_tests_cant": "there are 2^32 values of a single class and no bound on counts and periods; ambiguity is a statement about pairs", "anchors": ["include/gul14/date.h: operator<<, detail::string_literal, detail::msl, detail::to_string_len, detail::get_units, operator=="]}
{"id": "C103", "title": "within_orders in floating-point arithmetic", "statement": "For floating-point numbers and a whole number of orders, within_orders does not depend on the order of its two numbers. It is true for numbers that are equal, and false if one of them is NaN or if only one is infinite. Two different finite numbers are accepted if their difference is less than the larger one divided by 10^orders, and rejected if it is greater, except within some units of rounding of this limit; if orders asks for more digits than the type has, only equal numbers are accepted, also if 10^orders overflows. This fails for two equal infinities, which are rejected.", "quantifier": "all pairs of numbers of the type (float, double, long double), infinities and NaN, all whole numbers of orders (from 1 on for the accuracy), every std::pow that is accurate to one unit in the last place", "why_tests_cant": "2^128 pairs of doubles; the exceptions lie at rounding boundaries, in the subnormal range and where the power overflows", "anchors": ["include/gul14/num_util.h: within_orders, abs"]}
{"id": "C104", "title": "The alternative that a converted value takes in a variant", "statement": "When a variant is constructed from, or assigned, a value that is not a variant, a number is only stored in an arithmetic alternative of the same kind (integer or floating-point) that has all values of the number's type, so that no value is ever changed; only a bool, and no pointer, is stored as a bool. The number takes the alternative of its own type, otherwise that of the type to which it is promoted, otherwise the only other one that fits; only if there is no fitting arithmetic alternative does it take the only class that can be constructed from it. In all other cases the program does not compile: no alternative is chosen by its position.", "quantifier": "all arithmetic types, all lists of alternatives of any length, all values, all sets of classes that can be constructed from the argument", "why_tests_cant": "there are infinitely many lists of alternatives, and whether a conversion keeps all values is a statement about all values of a type", "anchors": ["include/gul14/variant.h: variant(Arg&&), operator=(Arg&&), best_match, overload_leaf, is_non_narrowing_convertible"]}
{"id": "C105", "title": "Spans show exactly what they are made from", "statement": "A span made from an array, a std::array, another object with data() and size(), another span or two pointers refers to exactly the elements of its source, in place and in order, whichever constructor is chosen. A static extent always equals the number of elements, which is known from the type of the source: no span of dynamic extent becomes one of static extent. Const and volatile are never lost and the element type never changes. A span can be made from every source whose elements have a compatible type; this fails for std::array with const elements, from which no span can be made.", "quantifier": "all element types and qualifiers, all sources (const or not, temporary or not), all extents and sizes, all constructors", "why_tests_cant": "which constructors exist depends on types, of which there are infinitely many, and tests cannot contain the cases that must not compile", "anchors": ["include/gul14/span.h: span constructors, is_container, is_container_element_type_compatible"]}
{"id": "C106", "title": "Delayed tasks", "statement": "A task added to a thread pool with a delay does not start before the delay has passed on the system clock since add_task was called; it is due exactly when it has passed. A task without start time or delay, or with a negative delay, is due at once. This holds only for delays that end at a time that can be represented: with Duration::max() or some million hours the computation of the start time overflows.", "quantifier": "all delays in all units, all times, all executions of the pool with any number of threads and calls", "why_tests_cant": "all schedules and all delays; the overflow cannot be observed reliably", "anchors": ["include/gul14/ThreadPool.h: ThreadPool::add_task (overloads with Duration, with a name)", "src/ThreadPool.cc: ThreadPool::perform_work"]}
{"id": "C107", "title": "Special member functions of variant", "statement": "A variant can be copied, moved or assigned exactly if all its alternatives can, with the effect on the alternative that is alive; if an alternative cannot be moved, rvalues are treated like lvalues. The operation copies bytes exactly if that is what it does for all alternatives, the destructor does nothing exactly if no alternative needs one, and moving is noexcept exactly if it is for all alternatives. This fails for copy assignment if an alternative can be copied but has a deleted move constructor: type traits say that the variant can be assigned, but the assignment does not compile.", "quantifier": "all lists of alternatives of any length, with any combination of deleted, trivial and other special member functions", "why_tests_cant": "there are infinitely many lists of types, and tests cannot contain code that must not compile", "anchors": ["include/gul14/variant.h: variant, detail_variant::traits, destructor, move_constructor, copy_constructor, move_assignment, copy_assignment, assignment::assign_alt"]}
{"id": "C108", "title": "Thread pool: nothing waits for ever", "statement": "While any number of threads keep adding, cancelling and asking, the clock is set and workers wake up without reason: if the scheduler and the mutex are fair and the functions of the tasks return, every task whose start time has come and stays in the past is started and finishes unless it is cancelled or the pool is shut down, its result becomes available, every call of a member function of the pool or of a handle (apart from get_result, which waits for the task) returns, and the destructor ends if the last shared pointer is released outside of the tasks.", "quantifier": "all infinite executions with a fair scheduler, all numbers of threads, all queues and all sequences of calls, all behaviours of the clock", "why_tests_cant": "a statement about infinite executions: no finite observation shows that something happens at some time, and the set of schedules is infinite", "anchors": ["src/ThreadPool.cc: ThreadPool::perform_work, ThreadPool::~ThreadPool, cancel_pending_task, count_pending, get_task_state, is_full, is_idle", "include/gul14/ThreadPool.h: ThreadPool::add_task, TaskHandle"]}
{"id": "C109", "title": "Trigger: nothing waits for ever", "statement": "While any number of threads keep calling member functions of a Trigger that is not destroyed, the clocks are set and waiting threads wake up without reason: if the scheduler and the mutex are fair, trigger(), reset(), assignments and queries return whatever other threads do; if the trigger is high from some moment on, every wait returns, with or without time limit; wait_for and sleep return if time goes on, and wait_until returns if the clock it uses reaches the given time and is not set back before it again, whatever happens to the trigger.", "quantifier": "all infinite executions with a fair scheduler, any number of threads and all sequences of calls, all behaviours of the clocks", "why_tests_cant": "a statement about infinite executions: no finite observation shows that something happens at some time, and the set of schedules is infinite", "anchors": ["src/Trigger.cc: Trigger::trigger, Trigger::reset, Trigger::wait, Trigger::operator=, Trigger::operator bool", "include/gul14/Trigger.h: Trigger::wait_for, Trigger::wait_until", "include/gul14/time_util.h: sleep"]}
{"id": "C110", "title": "Views returned by split_sv, tokenize_sv and the trim functions show the text in place", "statement": "The views that split_sv returns lie in the text that was passed; together with the delimiters between them they make up the whole text without gaps or overlaps. Those that tokenize_sv returns lie in the text, in their order, without overlaps, each of them not empty and followed by a delimiter or the end. trim_sv, trim_left_sv and trim_right_sv return a view that points into the text. All show the same characters as the functions that return strings. The last point fails if nothing but whitespace is in the text: the view then points into a string literal of the library.", "quantifier": "all texts, all delimiters (also empty ones) and sets of delimiters or whitespace", "why_tests_cant": "all texts and delimiters; tests compare characters, not the places where they are stored", "anchors": ["include/gul14/join_split.h: split_sv, split", "include/gul14/tokenize.h: tokenize_sv, tokenize", "src/trim.cc: trim_sv, trim_left_sv, trim_right_sv"]}
{"id": "C111", "title": "replace_inplace with arguments that are parts of the text", "statement": "replace_inplace does what replace does, whichever memory the views that are passed as needle and hammer refer to. This fails if one of them is a view of the text that is to be changed and a replacement is made: the view is read after the string it refers to has been modified.", "quantifier": "all texts, all needles and hammers, in memory of their own or at any place of the text", "why_tests_cant": "all texts and all ways in which arguments can overlap; reading an invalid view often goes unnoticed", "anchors": ["src/replace.cc: replace_inplace", "include/gul14/replace.h: replace_inplace"]}
{"id": "C112", "title": "Code of the user that the thread pool runs may use the pool", "statement": "The code that users hand to the pool - the functions of tasks and the constructors and destructors of the function objects - may call the pool (add tasks, cancel tasks, ask for its state): the pool never runs such code while it owns the mutex, so that no call can block itself and thereby everybody else. This holds for the functions of tasks. It fails for constructors (add_task moves the function object under the lock) and for destructors (an executed or cancelled task is destroyed under the lock).", "quantifier": "all interleavings of any number of threads, all ways in which functions, constructors and destructors call the pool", "why_tests_cant": "tests use function objects with harmless constructors and destructors, and one schedule", "anchors": ["include/gul14/ThreadPool.h: ThreadPool::add_task", "src/ThreadPool.cc: ThreadPool::perform_work, ThreadPool::cancel_pending_task, ThreadPool::cancel_pending_tasks, ThreadPool::~ThreadPool"]}
{"id": "C113", "title": "format of values that are not a complete date", "statement": "format(fmt, x) for a year, a month, a day, a weekday, a month of a year, a day of a month, or a triple of year, month and day that is no date, throws exactly if a conversion in fmt asks for a part that x does not have (or that is out of its range), for a complete date, a time or a time zone; otherwise it writes the characters of fmt and for each conversion the text that is right for every date with these parts. A date given together with its weekday is formatted as without it; with a different weekday, no weekday is written.", "quantifier": "all formats, all values of the seven types (also those that are not ok()), all facets of the locale", "why_tests_cant": "Formats are unbounded, and the absent parts are represented by particular invalid values that must be recognised in each of about sixty conversions.", "anchors": ["include/gul14/date.h:to_stream", "include/gul14/date.h:format", "include/gul14/date.h:fields", "include/gul14/date.h:extract_weekday", "include/gul14/date.h:extract_month"]}
{"id": "C114", "title": "parse: conversions without a meaning stand for themselves", "statement": "In parse and from_stream, a conversion specification that has no meaning (an unknown letter, a modifier that the letter does not take, or a specification cut off by the end of the format), with or without a width, stands for the characters it consists of: parsing gives the same stream and the same result as with the percent sign doubled.", "quantifier": "all formats of which it is a part (after a beginning that ends outside of a conversion), all texts, all widths, modifiers and letters, all facets of the locale", "why_tests_cant": "Formats and texts are unbounded; there are about forty letters with three modifiers each, and the characters are read by different code than literal text.", "anchors": ["include/gul14/date.h:from_stream", "include/gul14/date.h:read"]}
{"id": "C115", "title": "ThreadPool and Trigger: no data races", "statement": "Whatever functions of a thread pool the threads of the user, the task handles and the running tasks call, and however all threads take turns, from the constructor to the end of the destructor, no member of the pool is ever used by two threads at once with one of them writing or destroying it; only the owner of the mutex unlocks it and no thread locks it twice. The same holds for a trigger whose destructor runs alone.", "quantifier": "all numbers of workers, all numbers of threads of the user, all sequences of calls including calls from tasks, all interleavings, all ways through the functions", "why_tests_cant": "A data race is undefined behaviour in schedules that a test will usually not meet, in particular between the constructor and workers that are already running and between workers and the destructor.", "anchors": ["include/gul14/ThreadPool.h:add_task", "include/gul14/ThreadPool.h:capacity", "src/ThreadPool.cc:ThreadPool::ThreadPool", "src/ThreadPool.cc:ThreadPool::~ThreadPool", "src/ThreadPool.cc:perform_work", "src/ThreadPool.cc:count_threads", "src/Trigger.cc:trigger", "include/gul14/Trigger.h:wait_for"]}
{"id": "C116", "title": "ThreadPool: calls take effect one at a time", "statement": "Whatever functions of a thread pool are called at the same time, what the callers see is what they would see if each call took effect at a single instant between its beginning and its return, on a table of waiting and running tasks: adding, cancelling one or all, counting, listing names, asking for fullness, idleness, shutdown and the state of a task; and workers take the first due task, and give it back, at a single instant too.", "quantifier": "all numbers of workers, all capacities, all sequences of calls by any number of threads and by running tasks, all interleavings of the individual reads and writes, all clock readings, all points where an exception can occur", "why_tests_cant": "A result that mixes two states of the pool appears only if another thread comes between two particular statements.", "anchors": ["include/gul14/ThreadPool.h:add_task", "src/ThreadPool.cc:cancel_pending_task", "src/ThreadPool.cc:cancel_pending_tasks", "src/ThreadPool.cc:count_pending", "src/ThreadPool.cc:get_pending_task_names", "src/ThreadPool.cc:get_running_task_names", "src/ThreadPool.cc:is_full", "src/ThreadPool.cc:is_idle", "src/ThreadPool.cc:get_task_state", "src/ThreadPool.cc:is_shutdown_requested", "src/ThreadPool.cc:perform_work"]}
{"id": "C117", "title": "toc() measures elapsed time", "statement": "For a time point from tic(), toc() with an integer unit returns the whole units that have elapsed: never more than the elapsed time, and by less than one unit less; toc() without a unit returns the elapsed seconds as a double, off by at most one part in 2^52 (plus one in 2^106) and rounded to nearest for the first 2^53 nanoseconds. Neither is ever negative or less than the result of a call before.", "quantifier": "all time points and elapsed times up to the range of the clock, all units", "why_tests_cant": "Rounding errors and overflow depend on the elapsed time, which a test cannot choose.", "anchors": ["include/gul14/time_util.h:tic", "include/gul14/time_util.h:toc"]}
{"id": "C118", "title": "parse of years, months, days and weekdays", "statement": "If parse(fmt, x) succeeds for a year, a month, a day, a weekday, a month of a year or a day of a month, then the text that was consumed consists of one piece for each part of the format, the format mentions what is stored in x (a weekday may also follow from a complete date), and every piece says the same year, month, day and weekday as x: two different months, or a weekday that is not that of a complete date, are rejected. What is stored is in range (month 1-12, day 1-31 and not longer than the month, weekday 0-6).", "quantifier": "all texts, all formats of literal characters, white space and conversions for parts of a date (numbers and names), all facets of the locale", "why_tests_cant": "Texts and formats are unbounded; what is missing is represented by particular values, and a wrong text is accepted only for particular combinations of conversions.", "anchors": ["include/gul14/date.h:from_stream", "include/gul14/date.h:parse", "include/gul14/date.h:checked_set", "include/gul14/date.h:fields"]}
{"id": "C119", "title": "parse reads back what format writes: years, months, days, weekdays", "statement": "If a year, a month, a day, a weekday, a month of a year or a day of a month is written by format(fmt, x), then parse(fmt, y) reads the whole text without failure and stores x in y.", "quantifier": "all values of four-digit years, months 1-12, days 1-31 (for a day of a month: days that exist in leap years), weekdays; all formats of literal characters, white space, and the conversions for the parts that x has, which mention each of them and can be read unambiguously (names are followed by something else than a letter, %e stands after white space or the day has two digits, two-digit years come with the century or mean 1969-2068); all locales that read the names they write", "why_tests_cant": "Formats and values are unbounded, and parse has to take the parts that are missing for 'not given' while it combines the others.", "anchors": ["include/gul14/date.h:format", "include/gul14/date.h:parse", "include/gul14/date.h:from_stream", "include/gul14/date.h:fields"]}
{"id": "C120", "title": "to_number reads the floating-point numbers that cat writes", "statement": "The text that cat makes from a float or double (sign, digits, decimal point, six digits) is accepted by to_number for the same type. Infinities and not-a-number come back with their sign resp. as they are; a float that has at most six digits after the decimal point comes back unchanged; any other number comes back changed by at most 0.51 millionths plus one unit (float) or four units (double) in the last place, with the same sign.", "quantifier": "all floats and all doubles, with both signs", "why_tests_cant": "2^64 doubles; the text is rounded to six digits after the decimal point and to_number rounds in every step, so the error depends on the value.", "anchors": ["include/gul14/cat.h:ConvertingStringView", "include/gul14/cat.h:cat", "include/gul14/to_number.h:to_number"]}
{"id": "C121", "title": "The lvalue and rvalue overloads of expected's monadic operations agree", "statement": "and_then, map, map_error, or_else and value_or give the same result and call the user's function with the same argument, once or not at all, whether the object is an lvalue, a const lvalue, an rvalue or a const rvalue, and chains of them on temporaries do what C36 says. On const objects they leave the object as it is; on lvalues they change it only through the user's function; on rvalues they move the content that they pass on. The function given to or_else without a result does not alter the error that or_else returns.", "quantifier": "all objects, overloads, functions (with side effects, exceptions and any change of their argument) and all types that can be moved from", "why_tests_cant": "The claim ranges over all user functions and all types; the result depends on what a function leaves in an argument passed as an rvalue.", "anchors": ["include/gul14/expected.h:expected::and_then", "include/gul14/expected.h:expected::or_else", "include/gul14/expected.h:and_then_impl", "include/gul14/expected.h:expected_map_impl", "include/gul14/expected.h:map_error_impl", "include/gul14/expected.h:or_else_impl", "include/gul14/expected.h:expected::value_or"]}
{"id": "C122", "title": "parse takes its own text from a stream and nothing else", "statement": "A date, time point, local time or duration that was written with format(fmt, x) and is followed by any other text is read back by in >> parse(fmt, x) exactly as if nothing followed: the value is the same, the stream has not failed, and all of the other text is still in it (only if the format ends with white space, white space at its beginning is skipped too). So values that were written one after the other, without separators if the format has none, are all read back by the loop while (in >> parse(fmt, x)), in the same order, and the loop stops after the last one without finding another.", "quantifier": "all formats of literal characters, white space and numeric conversions that determine the value; all dates and time points of years that the conversions can represent (four digits) and format writes correctly, all durations below 100 hours, all decimal resolutions; all texts that follow, all numbers of values", "why_tests_cant": "Formats, values and following texts are unbounded: a conversion that reads one character too many is only noticed if the next text happens to begin with a digit, a sign, a point or white space.", "anchors": ["include/gul14/date.h:from_stream", "include/gul14/date.h:parse", "include/gul14/date.h:operator>>", "include/gul14/date.h:read_unsigned", "include/gul14/date.h:format"]}
{"id": "C123", "title": "Writing dates and times leaves the state of the stream alone", "statement": "After os << x for a calendar value, a time of day, a point in time or a duration, and after to_stream with a format, the flags, the fill character, the precision and the locale of the stream are what they were before, whatever they were. The text that is written does not depend on the flags, the fill character and the precision of the stream. If the stream has a width, the text is padded to it as a whole and the width is zero afterwards, as for built-in types.", "quantifier": "all values of all calendar classes (valid or not), times of day, points in time and durations; all flags, fill characters, widths, precisions and locales of the stream", "why_tests_cant": "The states of a stream are unbounded (flags, fill, width, precision, locale in all combinations), and a piece of a text that is written with the wrong one of them shows only in some of them.", "anchors": ["include/gul14/date.h:save_ostream", "include/gul14/date.h:low_level_fmt", "include/gul14/date.h:operator<<", "include/gul14/date.h:decimal_format_seconds::print", "include/gul14/date.h:to_stream"]}
{"id": "C124", "title": "What optional promises about copies, moves and exceptions", "statement": "An optional can be copied, moved, assigned and swapped in a program if and only if its type has the operations that may be needed, and the type traits say so; its destructor is trivial if and only if that of its type is. An operation of an optional calls at most one copy, move or swap of its type: the constructor if the target is empty, the assignment or swap if both have a value, none if there is nothing to transfer. An exception thrown there always reaches the caller. Moves and swap are noexcept exactly if the operations of the type that they may need are; an optional then never throws from them, and otherwise it can. The part about type traits fails: they claim that every optional can be copied and moved, and that none is trivially copyable.", "quantifier": "all types, by the state of their copy and move operations (deleted, trivial, user-provided with or without noexcept, no move), swap and destructor; all combinations of empty and engaged optionals; all choices of which operations of the type throw", "why_tests_cant": "A test instantiates optional with a few types. The claim is about every type, and about exceptions that may occur in any operation of it; a wrong noexcept specification only shows when the one operation that was forgotten throws.", "anchors": ["include/gul14/optional.h: optional copy and move constructors and assignments (333-388)", "include/gul14/optional.h: optional::swap, swap, adl_swap (128-134, 415-428, 869-872)", "include/gul14/optional.h: OptionalBase, storage_t, constexpr_storage_t, ~optional (169-259, 366)", "include/gul14/optional.h: initialize (308-313)"]}
{"id": "C125", "title": "Statistics of containers, of ranges, of lvalues and of rvalues", "statement": "The statistics functions can be called with a container or with two iterators; with two iterators they give what they give for a container with the elements between them, and they read nothing else. remove_outliers of an lvalue leaves its argument as it is and returns the shortened copy; remove_outliers of an rvalue shortens the argument itself and returns it; with two iterators it returns the shortened copy of the range.", "quantifier": "all contents of memory, all ranges in it, all accessors and operators, all classes of containers, constant or not, as lvalues and rvalues", "why_tests_cant": "Tests call the functions on a few whole containers; an overload that nobody calls is not even compiled.", "anchors": ["include/gul14/statistics.h:ContainerView", "include/gul14/statistics.h:make_view", "include/gul14/statistics.h:remove_outliers", "include/gul14/statistics.h:accumulate", "include/gul14/traits.h:IsContainerLike"]}
{"id": "C126", "title": "What can be passed to add_task", "statement": "Every function object that can be called without arguments or with a reference to the pool, with any result type, can be passed to add_task alone, with a start time, a delay, a name, or a time or delay and a name. The task then calls it like this, with the start time and the name that were given, and the handle has the type of its result. Other objects are rejected by the compiler.", "quantifier": "all types of function objects (what they can be called with, on constant objects, lvalues and rvalues, and what they return), all documented forms of the call", "why_tests_cant": "The overloads are chosen for each type of function object anew; a test instantiates the templates for a few closures.", "anchors": ["include/gul14/ThreadPool.h:add_task", "include/gul14/ThreadPool.h:TaskHandle"]}
{"id": "C127", "title": "SmallVector from a range of input iterators", "statement": "The constructor, assign and insert of SmallVector with two iterators work with every input iterator type, as documented: the vector gets copies of the elements of the range, all of them and in their order, and every element below size() is an object.", "quantifier": "all ranges, all capacities; iterators of containers, of streams (std::istream_iterator) and of stream buffers (std::istreambuf_iterator)", "why_tests_cant": "Tests use ranges of a few containers; that the code goes through the range twice shows only with iterators that allow one pass.", "anchors": ["include/gul14/SmallVector.h:SmallVector(InputIterator, InputIterator)", "include/gul14/SmallVector.h:assign", "include/gul14/SmallVector.h:insert", "include/gul14/SmallVector.h:fill_empty_vector_with_copied_range"]}
{"id": "C128", "title": "cat: numbers of all types", "statement": "cat shows an integer of any type, however small, as its decimal number, a char as this character, and a floating-point number of any type in fixed notation.", "quantifier": "all arithmetic types of C++14 and all their values", "why_tests_cant": "Which constructor is chosen depends on the type of the argument; tests try a few types and values.", "anchors": ["include/gul14/cat.h:ConvertingStringView", "include/gul14/cat.h:cat"]}
{"id": "C129", "title": "Containers can be gone through in both directions, constant or not", "statement": "SmallVector, SlidingBuffer, SlidingBufferExposed, span and string_view can be gone through with begin()/end(), cbegin()/cend(), rbegin()/rend() and crbegin()/crend(), also if the container is a constant: one sees the elements from begin() to end(), in this or in the reverse order, and as constants with the functions whose names begin with c and in constant containers.", "quantifier": "all containers of the library and all contents, constant or not, all four pairs of functions", "why_tests_cant": "Whether a program compiles depends on declarations that a test has to use one by one; the order has to be right for all contents.", "anchors": ["include/gul14/SmallVector.h:crbegin", "include/gul14/SmallVector.h:rbegin", "include/gul14/SlidingBuffer.h:SlidingBufferIterator", "include/gul14/SlidingBuffer.h:crbegin", "include/gul14/span.h:rbegin", "include/gul14/string_view.h:rbegin"]}
{"id": "C130", "title": "Names without std::locale are those of the calendar and are found in any case", "statement": "If the library is compiled with ONLY_C_LOCALE, then formatting writes the English names of weekdays, months and halves of the day, in full or with three letters, for all dates, and never reads outside of its tables. Parsing reads the longest part of the input that is the beginning of a name, whatever upper and lower case; it accepts it if it is a name in full or with three letters, stores what the name means, and fails otherwise. What has been formatted can be parsed again, and only texts that tell the date that is returned are accepted.", "quantifier": "all lists of keywords and all inputs; all weekdays, months and hours; all formats considered in C92 and C93", "why_tests_cant": "The inputs are unlimited, and so is the mixture of names that begin in the same way.", "anchors": ["include/gul14/date.h:scan_keyword", "include/gul14/date.h:weekday_names", "include/gul14/date.h:month_names", "include/gul14/date.h:ampm_names", "include/gul14/date.h:from_stream", "include/gul14/date.h:to_stream"]}
{"id": "C131", "title": "visit compiles exactly for exhaustive visitors and finds the right overload with every compiler", "statement": "A call visit(visitor, variants...) compiles exactly if the visitor can be called with every combination of alternatives and all these calls have the same type, for any number of variants with any number of alternatives. With the compiler of Microsoft, where tables of functions are used instead of switch statements, visit and the comparisons of variants do the same as with other compilers: the function for the current alternatives is called, nothing outside of a table is read, and bad_variant_access is thrown if a variant is valueless.", "quantifier": "all visitors, all numbers of variants and of alternatives, all states of the variants", "why_tests_cant": "The number of combinations is unlimited, and a switch covers 32 alternatives only; a call that must not compile is no test.", "anchors": ["include/gul14/variant.h:visit", "include/gul14/variant.h:dispatcher", "include/gul14/variant.h:make_fmatrix", "include/gul14/variant.h:make_fdiagonal", "include/gul14/variant.h:visit_return_type_check"]}
{"id": "C132", "title": "invoke, invoke_result and is_invocable are those of C++17", "statement": "With C++14, gul14::invoke(f, args...) can be called exactly if INVOKE(f, args...) of the C++17 standard is well-formed; it is the same expression, with the same type, and noexcept under the same conditions. invoke_result has a member type exactly then, and is_invocable is true exactly then; is_invocable_r<R, F, Args...> is true exactly if moreover the result can be converted to R or R is void.", "quantifier": "all pointers to member functions and data members, with all qualifiers, and all other callables; all arguments, be they objects, reference wrappers or pointers", "why_tests_cant": "Whether a call compiles is no matter of a run, and the combinations of callables and arguments are unlimited.", "anchors": ["include/gul14/traits.h:invoke", "include/gul14/traits.h:invoke_result", "include/gul14/traits.h:is_invocable", "include/gul14/traits.h:is_invocable_r"]}
{"id": "C133", "title": "Which objects can be swapped, and when swap is noexcept", "statement": "A variant has swap() exactly if all alternatives can be moved and swapped in the sense of the standard (by a swap of their own or by moving), and it is noexcept exactly if that cannot throw; the same holds for optional. An expected has swap() whenever the standard says so, a call of swap that is offered compiles, and if it is declared noexcept nothing in it throws. This fails for expected in several cases: there is no swap() for expected<void, E>, nor if one of the types is associated with namespace std and relies on std::swap (std::error_code, durations, classes derived from std::runtime_error); two errors are never swapped with the swap of their own type, and if that is noexcept while the move assignment throws, the noexcept swap() ends the program; and swap may be offered for types for which it does not compile.", "quantifier": "all types (objects with every combination of move constructor, move assignment and swap of their own, noexcept or not, associated with namespace std or not; void; arrays of any depth) and, for noexcept, all contents of the two objects", "why_tests_cant": "The answer is given by overload resolution for each of infinitely many types; tests instantiate a few.", "anchors": ["include/gul14/expected.h: detail::swap_adl_tests, detail::is_swappable, detail::is_nothrow_swappable, expected::swap, swap", "include/gul14/variant.h: detail_variant::is_swappable, variant::swap", "include/gul14/optional.h: optional::swap"]}
{"id": "C134", "title": "Conversions into an expected: values give values, errors give errors", "statement": "An expected<T, E> made from a value holds a value, made from an unexpected<G> it holds an error, and made from an expected<U, G> it holds a value or an error as that does; each is possible exactly if the value or error can be made from the one of the argument, and implicitly exactly if that conversion is implicit. Assignment has the same result. Copying an unexpected copies its error. This fails in these cases: an expected<bool, E> made from an expected of another type always holds a value (whether the argument has one), so that an error becomes the value false; a variable of type unexpected<G> gives a value if T can be made from it (like std::any), and a copy of an unexpected error is nested in the same way; and assignment of an unexpected<G> with another error type does not compile although construction does.", "quantifier": "all types T, E, U, G and relations between them (which can be constructed, converted, assigned), all value categories of the argument", "why_tests_cant": "The overload taken depends on arbitrary combinations of user types and value categories; tests instantiate a few.", "anchors": ["include/gul14/expected.h: expected::expected, expected::operator=, detail::expected_enable_forward_value, detail::expected_enable_from_other, unexpected"]}
{"id": "C135", "title": "Rounding of durations with floating-point counts", "statement": "For a std::chrono::duration whose count is a floating-point number, trunc, floor, ceil and round to the same or a longer unit give exactly the integer towards zero, not above, not below and nearest (even on ties) of the exact quotient, although the quotient and the differences are rounded on the way, for all counts with |d| + N < 2^p (p bits of precision, N the ratio of the units), whether the new count is an integer or a floating-point number. In the same unit trunc, floor and ceil are right for all numbers and leave infinities and NaN alone. To a shorter unit, the results are those for the rounded product, so that floor can exceed the duration. Conversions to integers of NaN, infinities and counts that do not fit are undefined.", "quantifier": "all floating-point formats with at least 2 bits, all numbers of the format, all ratios of units, all ranges of the integer type", "why_tests_cant": "The effect of rounding in the division and in the differences depends on the last bits of the count; tests try a few round numbers.", "anchors": ["include/gul14/date.h: detail::trunc, trunc, floor, round, ceil"]}
{"id": "C136", "title": "Ratios of units of time, and trunc between any two units", "statement": "The compile-time test for overflow of the ratio of two units is true exactly if that ratio can be written with two integers of 64 bits, the ratio is then the one in lowest terms, and no constant overflows on the way. trunc between durations of any two units with 64-bit counts gives the whole number of units, towards zero, whenever no product overflows. This fails for units whose ratio does not fit if neither is a whole number of units per second, since the count is then made whole in seconds first.", "quantifier": "all pairs of periods (std::ratio with positive 64-bit parts), all counts", "why_tests_cant": "The boundary between the two overloads depends on 64-bit products of arbitrary constants; tests use the usual units only.", "anchors": ["include/gul14/date.h: detail::static_gcd, detail::no_overflow, trunc"]}
{"id": "C137", "title": "Time of day of a floating-point duration", "statement": "hh_mm_ss of a duration with a floating-point count (in seconds, milliseconds, ...) splits its absolute value exactly into hours, minutes and seconds below 60 and a fraction below one second, without any rounding; is_negative is the sign; to_duration() gives the same number back; in_conventional_range() is true exactly from midnight to the end of the day. Written to a stream it reads hh:mm:ss.ffffff, within half a microsecond. This last part fails in the last half microsecond before a full minute, written as 60 seconds, and before the tenth second, written with three digits. Infinities and NaN are undefined behaviour.", "quantifier": "all formats like float, double and long double, all numbers d of the format with |d| + one hour < 2^p, all decimal units", "why_tests_cant": "Each step is a rounded floating-point operation; that none of them rounds has to hold for every number.", "anchors": ["include/gul14/date.h: hh_mm_ss, detail::decimal_format_seconds, detail::abs"]}
{"id": "C138", "title": "A task handle stands for one task, wherever it is moved", "statement": "A TaskHandle stands for the task it was returned for, also after moving it to other variables; no two handles stand for the same task. get_state() and cancel() concern exactly this task of the pool it was added to and throw std::logic_error if that pool is gone; get_result() returns the result of this task, at most once. A handle that was default-constructed or moved from has no task: is_complete() is false, the other functions throw std::logic_error. A call of cancel() that throws or cancels nothing has no effect. This last part fails: the result is lost in any case.", "quantifier": "all sequences of operations on any number of handles, with arbitrary changes of pools and tasks in between", "why_tests_cant": "Handles can be moved in any order through any number of variables while tasks and pools come and go.", "anchors": ["include/gul14/ThreadPool.h: ThreadPool::TaskHandle", "src/ThreadPool.cc: detail::lock_pool_or_throw, ThreadPool::cancel_pending_task, ThreadPool::get_task_state"]}
{"id": "C139", "title": "hexdump accepts ranges and containers of integers and nothing else", "statement": "hexdump(begin, end), hexdump(begin, end, prompt), hexdump(container) and hexdump(container, prompt) compile for forward iterators and for containers with cbegin() and cend() whose elements are of an integral type, and dump exactly the elements of the range or container with the prompt; calls with other types do not compile. This fails for bool, for iterators whose operators are not members, and for a text given as two string literals, hexdump(\"text\", \"prompt\"), which compiles as a range from one literal to the other.", "quantifier": "all types of arguments, all values", "why_tests_cant": "The set of types is unbounded, and calls that must not compile cannot be in a test program.", "anchors": ["include/gul14/hexdump.h: hexdump, detail::IsHexDumpContainer, detail::IsHexDumpIterator, detail::hexdump_stream"]}
{"id": "C140", "title": "Assigning an object its own content", "statement": "Assignment to an optional, an expected or a variant, emplace, and push_back and push_front of a SlidingBuffer have the same effect with a reference to the content of the same object (or to a part of it) as with a copy of that content. This fails for emplace of all three classes, for e = e.error() and similar assignments that change what an expected holds, and for assignments of a variant's content that change the alternative, unless the code makes a temporary object: there the argument is read after it has been destroyed.", "quantifier": "all contents, all arguments inside and outside of the object, all combinations of the type properties that select the code", "why_tests_cant": "Reading a destroyed object often seems to work; and which code runs depends on the properties of the types.", "anchors": ["include/gul14/optional.h: optional::operator=(U&&), optional::emplace", "include/gul14/expected.h: expected::operator=, expected::emplace", "include/gul14/variant.h: detail_variant::assignment::emplace, assign_alt", "include/gul14/SlidingBuffer.h: SlidingBuffer::push_back, push_front"]}
{"id": "C141", "title": "split and tokenize with containers and inserters of your own", "statement": "split (at a string or at a regular expression) and tokenize, with a container type and an inserter given by the user, call the inserter exactly once for each of the parts that they return by default, in the order of the text, beginning with an empty container; an exception of the inserter leaves the function at once and no further part is inserted. With the default inserter, a container with emplace_back and a queue hold the parts in order, and a set holds exactly the parts, without repetition.", "quantifier": "all texts, delimiters and regular expressions; all container types and inserters (any change of any state, with or without an exception, depending on everything that happened before)", "why_tests_cant": "The inserter is arbitrary code with a state of its own; a test uses one or two.", "anchors": ["include/gul14/join_split.h: split(string_view, string_view, ContainerInsertFct), split(string_view, const std::regex&, ContainerInsertFct), split_sv", "include/gul14/tokenize.h: tokenize, tokenize_sv", "include/gul14/string_util.h: detail::emplace_back, detail::HasEmplaceBack"]}
{"id": "C142", "title": "join allocates once and respects the length limit", "statement": "join(parts, glue) reserves exactly the length of its result: it allocates memory at most once, whatever the number of parts, and not at all if the result has room in an empty string. If the result would be longer than std::string::max_size(), join throws std::length_error and never returns a shortened text, even if the sum of the lengths exceeds the range of std::size_t.", "quantifier": "all lists of parts, all glue strings, all values of max_size() and of the capacity of an empty string, all growth strategies of the library", "why_tests_cant": "Results beyond max_size() and sums that wrap around cannot be produced in a test, and the number of parts is unbounded.", "anchors": ["include/gul14/join_split.h: join(Iterator, Iterator, string_view), join(const StringContainer&, string_view)"]}
{"id": "C143", "title": "What the object returned by hexdump_stream holds, and whether it can be kept", "statement": "hexdump_stream of a temporary container returns an object that owns the data, so that it prints the same dump whenever it is written to a stream; of a named container or of two iterators, it returns an object that refers to the data and prints the elements as they are at that moment. The object can be copied, moved, assigned and kept in a variable. The last part fails for objects that refer to data: their copy and move operations do not compile, and in C++14 they cannot be kept in a variable. The first part fails for container types that cannot be default-constructed.", "quantifier": "all kinds of arguments, all container types (by the properties that the code asks for), all contents, everything that can happen to the caller's container before printing", "why_tests_cant": "Which overload is chosen depends on type and value category; that an operation does not compile cannot be seen in a unit test.", "anchors": ["include/gul14/hexdump.h: hexdump_stream, HexdumpParameterForward"]}
{"id": "C144", "title": "cat and repeat allocate once and respect the length limit", "statement": "cat with any number of arguments, and repeat, reserve exactly the length of the result: they allocate memory for it at most once, and not at all if it has room in an empty string. If the result would be longer than std::string::max_size(), they throw std::length_error and never return a shortened text, even if the sum or the product of the lengths exceeds the range of std::size_t.", "quantifier": "all lists of pieces, all strings and numbers of repetitions, all values of max_size() and of the capacity of an empty string, all growth strategies of the library", "why_tests_cant": "Results beyond max_size() and lengths that wrap around cannot be produced in a test, and the number of pieces is unbounded.", "anchors": ["include/gul14/cat.h: cat", "src/cat.cc: cat", "src/string_util.cc: repeat"]}
