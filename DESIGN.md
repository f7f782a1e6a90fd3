# Formal model of gul14: design

The subject is gul-cpp/gul14 at the pinned commit in /repo. The properties are in `properties.jsonl`, the model and the proofs in `lean/Verif/`, the mapping from properties to theorems in `MANIFEST.json`, and the log of wrong programs on which the theorems were tested in `seeded/LOG.jsonl`.

Each area has up to four kinds of files (small areas: one file):

* `Model.lean` – executable definitions or transition relations, one per C++ function, each with a comment citing the file and lines in /repo it models and naming every simplification;
* `Spec.lean` – the small independent specification (what the English property means), written without the model's helpers, in a namespace `Gul14.Spec…`;
* lemma files – auxiliary lemmas and invariants;
* `Props.lean` and similar – the property theorems, named `cNN_…` after the property, with a non-vacuity `example` (or a theorem about a concrete execution) beside them.

## Conventions

* Characters are elements of an arbitrary type with decidable equality where the C++ is generic, and `UInt8` where byte values matter. Strings are `List`s.
* `std::size_t` is `Nat`; where the C++ can wrap around, the model takes the result modulo 2^64 explicitly. `npos` is 2^64-1.
* Undefined behaviour is a distinct outcome (`ub`), exceptions are a distinct outcome (`throw`), `std::terminate` (an exception leaving a `noexcept` function) is a distinct outcome (`terminate`). Theorems about functions say which of these outcomes are possible.
* Loops are structural recursion, or recursion with a fuel argument that yields a distinct outcome (`diverge`) when it runs out; theorems show that it does not run out, so termination is part of what is proved.
* Exceptions of element operations (copy, move, assignment, construction) and allocations are injected: a run has a counter of element operations and a parameter that says at which of them an exception is thrown (`Verif/Lifetime.lean`). Theorems quantify over this parameter.
* Concurrent classes are labelled transition systems with any number of threads; a property of an execution is stated about its list of events (the history) and not about the state of the model, wherever possible. Progress is stated as: no sequence of steps of the threads is longer than a bound, and in every state in which no thread can make a step the desired thing has happened.
* Where the code violates the property as stated, the violation is proved (theorem with suffix `_violated`) with a concrete witness, and what remains true is proved under the suffix `_partial`. The full statement stays in `properties.jsonl`.

## Trusted base

* Lean 4.33.0's kernel and the axioms `propext`, `Classical.choice`, `Quot.sound`. The list at the end of this file says which of them each property theorem depends on. There are no axioms of our own, no `sorry`, no `native_decide`, no `bv_decide`.
* The reading of the C++ text: nothing was compiled or run. The C++ standard library functions called by gul14 (`std::find`, `std::search`, `std::min`, `std::rotate`, `std::move_backward`, `std::nth_element`, `std::uninitialized_copy`, `std::packaged_task`, `std::condition_variable`, stream insertion, …) are modelled by their meaning in the C++ standard.
* Platform: 8-bit bytes, two's complement, signed `char`, 32-bit `int`, 64-bit `std::size_t`, `system_clock` as `time_point` (x86-64 Linux, GCC).
* Not modelled anywhere: `constexpr` evaluation, ABI, locales other than "C", data races on objects the library does not own.
* Template overload resolution and SFINAE are modelled only where a property is about them (C104, C107, C121, C126, C131 to C134, C139, C143).
* Floating-point rounding is that of IEEE 754 to nearest (`Ieee/`) in C87 to C89, C97, C103, C117, C120, C128, C135 and C137 where the theorem says so. Elsewhere real arithmetic is exact, and where rounding matters, theorems quantify over every faithful rounding or the claim is marked partial.

## What is modelled

| File in /repo | Modelled in | Not modelled |
|---|---|---|
| string_view.h | `StringView/`, `Stream.lean` (inserter) | character types other than `char`, the choice between overloads |
| string_util.h/.cc | `Text/` (hex_string, repeat, safe_string) | |
| cat.h/.cc | `Text/` (cat, argument objects, memory), `ToNumber/CatFloat.lean` (floating-point arguments) | |
| escape.h/.cc | `Text/` | |
| case_ascii.h/.cc, substring_checks.h | `Substring/` | |
| join_split.h, replace.h/.cc, tokenize.h, trim.h/.cc | `Strings/` (regular expressions as a parameter with the contract of std::regex_search); containers and inserters of the user in `Strings/Inserter.lean`, memory of `join` in `Strings/JoinMemory.lean` | which element types `split` compiles with (it needs `value_type::size_type` = size_t and `value_type::npos`) |
| to_number.h/.cc | `ToNumber/` (exact arithmetic in `Model.lean`, IEEE arithmetic in `Ieee.lean`) | rounding modes other than to nearest, long double formats other than x86's, excess precision, the strtold fallback |
| bit_manip.h, gcd_lcm.h, num_util.h | `Integer/`, `NumUtil/` (within_ulp) | `std::pow` as a library function is exact |
| statistics.h | `Statistics/` | C45-C48: rounding (exact arithmetic); C97: excess precision, other rounding modes, signs of zeros |
| SlidingBuffer.h | `SlidingBuffer/` | |
| SmallVector.h | `SmallVector/` | custom alignment of cells |
| span.h | `Span/` | |
| optional.h | `Optional/` | |
| expected.h | `Expected/` (special members in `Members.lean`, overloads of the monadic functions in `RefQual.lean`) | constexpr evaluation; the code for GCC before 6 |
| finalizer.h | `Finalizer.lean` | |
| type_name.h | `TypeName.lean` | the compiler's signature is a parameter |
| hexdump.h | `Hexdump/` | |
| Trigger.h/.cc, time_util.h | `Trigger/` (Trigger, interruptible sleep), `TimeUtil.lean` (tic, toc) | rounding of the durations of waits |
| ThreadPool.h/.cc | `ThreadPool/` (`Model.lean`: one step per critical section; `Linear.lean`: one step per access; `Race.lean`: accesses for data races; `HandleValues.lean`: handles as objects) | signal mask |
| date.h | `Date/` (day, month, year, weekday, year_month, month_day, year_month_day, year_month_day_last, year_month_weekday, year_month_weekday_last, rounding of durations, hh_mm_ss, text output of dates and times, format and parse with format strings) | a stream that does not throw on failure, the facets of the locale (a parameter), floating-point durations other than in C135 and C137, overflow of duration representations where a theorem does not mention it |
| variant.h, utility.h (monostate) | `Variant/` (traits, storage, construction, assignment, emplace, swap, get, get_if, holds_alternative, visit, comparison, hash; choice of the alternative for a converting constructor or assignment; existence, triviality and noexcept of the special member functions) | tie-breaks between conversions of the same rank (pointers to base classes, references) in the choice of the alternative, GCC 4, constexpr evaluation, references to a variant's own content as arguments of emplace |
| traits.h | `Traits/Invoke.lean` (invoke and its traits, C132), `Statistics/Range.lean` (IsContainerLike, C125) | remove_cvref, void_t |
| version.h, internal.h, gul.h | – | no run-time behaviour |
| catch.h | – | test framework |

## Plan and method per property

| Id | What is modelled, how it is proved |
|----|------------------------------------|
| C01 | `split`'s loop with its two cursors over `find`; `join` as fold. Loop invariant, induction on remaining text. |
| C02 | Specification: inductive relation "cut at the leftmost occurrence". Refinement of the loop; inverse for one-character delimiters by induction over the parts; the inverse for longer delimiters is refuted by a witness. |
| C03 | `tokenize` loop over `find_first_not_of`/`find_first_of`; spec = maximal runs (structural recursion on the string). |
| C04, C05 | Both loops; spec = inductive relation "leftmost non-overlapping replacement"; both functions refine it, hence are equal. |
| C06 | `trim*` over the string_view searches; spec = decomposition `s = ws ++ r ++ ws'` with border conditions. |
| C07 | Every search loop of string_view.h, with 64-bit positions; spec = least/greatest index satisfying a predicate. |
| C08 | `substr` with 64-bit wrap-around; violated for huge counts (witness); partial theorem without wrap. |
| C09 | `compare`, `char_traits::compare`; spec = lexicographic order. |
| C10, C11 | substring checks, spec by existence of prefix/suffix. |
| C12-C14 | `escape`, `unescape` (regex semantics written out as a scanner); round trip by induction; spec of unescape as inductive relation; DEL (0x7f) refutes C13's "printable". |
| C15 | `cat`, decimal rendering; with C16 the read-back theorem. |
| C16 | Digit loop with overflow checks at arbitrary widths, both preprocessor branches; spec = numeral value. |
| C17 | The parsing part: mantissa digits, truncation to 19 digits, exponent arithmetic in 32-bit `int` with UB outcome; result as exact rational `m * 10^e`. Violations (unvalidated tail, exponent overflow) by witness; partial theorem for at most 19 digits. Floating-point rounding: C87, C88. |
| C18 | direct. |
| C19 | nibble loop over `Nat`; value of the digits by induction. |
| C20, C21 | direct; safe_string with explicit reads to show what it reads. |
| C22 | `hexdump_stream` as a function on a stream (flags and text); spec = text of the lines; reader defined independently; round trip. |
| C23-C27, C66 | SlidingBuffer and SlidingBufferExposed as storage + two indices + flag, every operation; refinement to a bounded deque, lifted to all histories. |
| C28-C32 | SmallVector as memory blocks of cells (raw or live) with UB outcome for every illegal access; 26 operations; weakest-precondition calculus (`LifetimeWp.lean`); refinement to `List`, lifted to histories; exceptions at every element operation and allocation; aliasing arguments as a separate kind of argument. |
| C33 | span as (storage, offset, length). |
| C34, C35, C67 | optional as cell + flag with lifetime outcomes; histories over any number of objects; all comparison operators; optional references. |
| C36-C38 | expected as union cells + flag; monadic functions with functions that have side effects; exception outcomes (`throw`, `terminate`, `ub`); which calls may end the program is part of the statement. |
| C39 | integers with a width and a signedness, with C++ integer promotion to 32 bits made explicit. |
| C40, C41 | Euclid's loop on `Int` with range checks; UB for `abs(min)`; narrow types wrap. |
| C42-C44 | num_util over an abstract strict weak order / exact integers with range checks, and floating-point numbers with an arbitrary faithful rounding, infinities and NaN. |
| C45-C48 | statistics over exact rationals or any ordered field, NaN as an extra element. |
| C49-C58, C70 | ThreadPool as a labelled transition system: workers follow perform_work step by step, the member functions are critical sections, condition variable with arbitrary notify_one choice, spurious wake-ups, arbitrary clock; destruction by any thread including tasks; task handles with their futures. Invariants by induction over executions; a history-based specification (`ThreadPool/Spec.lean`) determines the state of each task from the events alone. Progress by a decreasing measure and analysis of the states without steps. |
| C59-C62 | Trigger as a transition system with mutex, flag, waiters, two clocks, destruction. |
| C63 | FinalAction objects with an execution ledger. |
| C64 | string slicing over a signature string. |
| C65, C69 | objects with own buffers and pointers/iterators to them; histories of copies and moves. |
| C68 | the inserter of string_view.h against the inserter of std::string. |
| C71, C72, C76 | fields with their machine types, `int` overflow as `ub`, `unsigned` modulo 2^32. Specification: the calendar as rule for the next day, counted from the epoch (`Date/Spec.lean`). Closed formula for the day number, successor lemma, order lemma; inverse by injectivity. |
| C73-C75 | weekday, month and year_month arithmetic; specification by counting weekdays in the month. |
| C77, C78 | durations as integer counts with an arbitrary rational unit; division lemmas. |
| C79 | the characters that operator<< writes; specification: digits and their value. |
| C80-C82 | the store of variants with the live alternative of each union; all overloads selected by traits; every element operation may throw once, at a point chosen by the environment. Hoare-style rules (`LifetimeWp.lean`) give each operation a specification on contents (`Variant/Spec.lean`), histories by induction. |
| C83-C85 | comparison, access, visit and hash as functions of consistent variants (the state that C80 establishes); induction over the variants visited. |
| C86 | the loop of split with a search function as parameter and its contract (leftmost match); termination measure 2·(rest) + (last match not empty); specification: cutting at leftmost matches. |
| C87, C88 | `Ieee/`: formats, rounding to nearest even of rationals, operations (`Fl`); `to_number` with the operations of the code in double and long double, the tables of powers of ten rounded correctly. Error analysis with factors between L and H per operation; the loop of pow10 by an invariant; numbers of a format are apart, so a nearby value is rounded to a representable one. Violations for C88 by kernel computation. |
| C89 | `within_ulp` in IEEE arithmetic; specification: neighbours and steps between numbers of the format. Each step is at most one unit of the larger magnitude; the product with epsilon is rounded monotonically. |
| C90 | the loop of to_stream as a state machine, each conversion with its modifier; `std::time_put` as a parameter. The loop is shown to write the items of the format one by one (tokenizer of `FormatSpec.lean`); each item against the definition of the standard (weeks as counts of weekdays, ISO weeks by their Thursday). |
| C91 | the same model; a negative time compared with its absolute value, item by item. |
| C92 | the loop of from_stream as a state machine over a stream (characters left, eofbit, failbit); `std::time_get` as a parameter; then the part that combines what was read. Invariant of the loop: the variables are those of the letters seen so far; each item of the format reads exactly the text that `FormatSpec.lean` gives it. The combination: every variable is unset or right for the date in question, so all computations and checks agree. Names, %I with %p, %e, %n, %t and %Z: a frame lemma says that the numeric conversions neither read nor change the variables of these; the hypothesis `ReadsNames` about time_put and time_get (each name is read back when no letter follows) is met by a concrete pair of facets with English names. |
| C93 | the same model. Each read function is inverted: if it succeeds, the consumed characters are a number with that value. Invariant of the loop: each variable is unset or has the value of every piece read for it. The combination is inverted step by step: the date that comes out has all the numbers that were read. For the seconds the errors of the long double computation (IEEE 754 model) are bounded by less than one tick. |
| C94 | the same model, in which overflow of `int`, negation of the smallest number and conversion of a floating-point number that does not fit are undefined. Every step of the loop ends and keeps the variables in range; the combination is defined for variables in range. Sums in 64 bits are not checked by the model; instead the sum of the absolute values of all parts is bounded by 2^63. For formats of every kind the invariant of the loop is on the variables only (each in the range its width allows), with the facet `time_get` as an arbitrary function with values in range. |
| C95 | a relation that gives the states which a call can leave behind when it throws, one case for each place where an exception can come from; elements touched by the failing operation have any value. The invariant of C23 holds for all of them but one. |
| C96 | the loop of char_traits::length over a memory block that ends somewhere; each overload as written; equality with the results for views (C07, C09). |
| C97 | the same functions with every operation rounded to the format of the result type; sums by induction with a factor (1 + u)^n for the accumulated rounding errors; squares of roots to stay within the rationals; the sum of squared distances from the computed mean is that from the exact mean plus n times the square of its error. |
| C98 | the forty overloads of operator/ as one function on a sum type; which triples of operands say a date and which, by cases on the operands; comparisons by a lexicographic key; ok() of month_weekday by exhibiting a year for every month, weekday and index; months and years added with the lemmas of C74. |
| C99 | the chain of base classes as functions from the special members of T and E to those of expected, with the C++14 rules for implicit, defaulted and deleted functions; the conditions of all specialisations as Booleans and the relations between them; all combinations of these. |
| C100 | `ThreadPool/Failure.lean`: add_task statement by statement with four points of failure, in a state monad whose exceptions keep the changes made so far; equality with a step of the pool. The start of a task and the constructor with failing allocations and threads. |
| C101 | `ThreadPool/Own.lean`: calls as lists of actions on shared pointers and the mutex, interleaved arbitrarily; invariant: the use count is the sum of the pointers of all threads, and what remains of a call destroys no more than its thread owns. |
| C102 | operator<< of every calendar class as a list of characters, names of the locale as parameters; texts are taken apart at the first `/`, `[`, space or non-digit; cases on pairs of classes. Units of durations as a lookup in the table of specialisations with the general ratio as default. |
| C103 | `NumUtil/Orders.lean`: within_orders with rounded subtraction, division and power; a quotient that is not above a number of the format is not rounded above it; relative errors of the difference (exact or rounded with relative error) and of the power. |
| C104 | `Variant/Choice.lean`: overload resolution among one function per alternative, with the C++14 rules for narrowing and for the rank of a conversion; specified by sets of values (exact floating-point numbers, integer ranges). Narrowing is equivalent to losing a value or the kind of number: cases on types, inclusion of formats, the largest number as witness. |
| C105 | `Span/Construct.lean`: for each constructor the condition under which it takes part and the span that it makes; cases on constructor and source, against a specification by compatibility of element types. |
| C106 | `ThreadPool/Delay.lean`: computation of the start time in 64 bits; combined with C51 for every execution. |
| C107 | `Variant/Members.lean`: the chain of base classes and the rules of C++14 for defaulted functions, for any list of alternatives (induction over the union); what each operation does as a function of the alternatives. |
| C108 | `ThreadPool/Fair.lean`: infinite executions of the model with strong fairness for each thread (a thread that can go on infinitely often goes on) and tasks that return. A due task cannot stay in the queue: its position in the queue does not grow, a worker that looks at the queue takes a task at or before it (induction on the position), and no worker can sleep for ever beside it (the wake-up invariant of C54). Calls by induction on what is left of them; the destructor by the ranks of the workers. |
| C109 | `Trigger/Fair.lean`: infinite executions of the model of C59 with strong fairness for each thread. The mutex is released again and again; calls by induction on the number of steps that are left; a blocked thread is woken by the notification that is under way (invariant of C59) or, in timed waits, when the deadline has passed. |
| C110 | `Strings/Views.lean`: the loops of split and tokenize and the trim functions with views (base, offset, length) instead of characters; refinement to the models of C01–C06 by induction on the loops, tiling and order by induction with the position reached. |
| C111 | `Strings/Alias.lean`: replace_inplace with arguments that may be views of the haystack; reading one after a modification is undefined. Reduction to C05 for arguments of their own. |
| C112 | `ThreadPool/UserCode.lean`: the ways through the functions of the pool as sequences of lock, unlock and code of the user, which may call the pool in turn; interleavings of any number of threads. Invariant: what a thread has ahead of it is balanced with respect to the mutex. |
| C113 | `Date/FormatParts.lean`: the model of C90 with fields of which only some are in range; each conversion asks for one part; specification: right for every date with the known parts. |
| C114 | the model of C92. The loop is run in parts: a lemma says that running it on `P ++ R` is running it on `P` and then on `R`, if `P` ends outside of a conversion. The loop on the conversion and on its escaped form end in the same state. |
| C115 | a transition system in which every thread has a list of accesses still to do; each function is the list of its accesses with lock and unlock, the constructor and the destructor included. Invariant: functions and workers use the protected members only with the mutex and do not write the others; before the pool is ready, workers neither run tasks nor use the members that the constructor still writes; an access by the destructor is protected or comes after the last join. |
| C116 | `ThreadPool/Linear.lean`: every function as a sequence of locks, unlocks, reads and writes that threads interleave; specification `ThreadPool/TableSpec.lean`: a table on which calls take effect at one instant. Simulation: a call takes effect when it locks the mutex, a worker takes a task when it reads the clock; the table corresponds to the members at the end of the current critical section. |
| C117 | `TimeUtil.lean`: duration_cast as specified by the standard, with checked 64-bit arithmetic, or conversion to double and division (IEEE 754, `Ieee/`). |
| C118 | the model of C92/C93. `Date/ParseParts.lean`: what each conversion leaves in the variables says what its text says (the lemmas of C93); the getters and checks of the six overloads. Specification `Date/ParsePartsSpec.lean`. |
| C119 | `Date/ParsePartsReads.lean`: format (C113) writes a text that is right for every date with the known parts; choose one, read the text with the lemmas of C92, and follow the parts that the format mentions through the final checks. |
| C120 | `ToNumber/CatFloat.lean`: `%f` as rounding of the exact value to six decimals; the text is a numeral, and C87/C88 say how to_number reads it. |
| C121 | `Expected/RefQual.lean`: the same operations as C36 with the object in the state and the overload as a parameter; functions leave something in their argument, moves leave an arbitrary function of the content. |
| C122 | `Date/ParseSequence.lean`: the lemmas behind C92 with an arbitrary text behind the text of the format and a stream that may have skipped white space; induction over the values; on an empty stream C94 (it ends) and the soundness lemma of C93 (every conversion takes a character) give failure. |
| C123 | `Date/StreamState.lean`: a stream with flags, fill character, width, precision and locale, the formatting of integers and text by the library, save_ostream as a function that runs a body and sets everything back; each operator<< piece by piece. Equal to the texts of C79 and C102 where the state permits, with counterexamples elsewhere. |
| C124 | `Optional/Members.lean`: the declarations of the special members as functions of those of T; the bodies as far as they call functions of T, with noexcept specifications as places where an exception ends the program. Case analysis over the flags, for every choice of which functions throw. |
| C125 | `Statistics/Range.lean`: the functions on what they ask of a container (cbegin, cend, size), with iterators as positions in memory and reads outside of it undefined; the view of two iterators; the members that a class needs for a call to compile, and the choice between the overloads of remove_outliers. Induction over the loops; case analysis for the overloads. |
| C126 | `ThreadPool/AddTask.lean`: the six overloads, the condition under which each is viable, and what each body needs and passes on; a function object is described by the ways in which it can be called and by its result types. Case analysis over the forms of the call, for all function objects. |
| C127 | `SmallVector/Iterators.lean`: iterators as what they do (compare with the end, read, advance) with a state that they share; positions in memory, istream_iterator and istreambuf_iterator are three instances. std::distance and the copying loop, cells without an object. Induction over the range. |
| C128 | `Text/CatTypes.lean`: overload resolution among the constructors of ConvertingStringView by the ranks of the conversions, and the conversion of the value. Case analysis over the types, linear arithmetic for the values. |
| C129 | `Containers/Traversal.lean`: the declarations of the iterator functions (const or not, type of the iterator), overload resolution for constant and other objects, what operator* of std::reverse_iterator needs, and the loop over positions. Induction over the range; case analysis over the declarations. |
| C130 | scan_keyword with its table of statuses and its two counters; the tables; the conversions %a %A %b %B %h %p of from_stream and to_stream without std::locale. A loop invariant says that the statuses are those of the text read so far; from it, the text that is read is the longest beginning of a keyword (c130_scan). The conversions are shown to be those of a facet that has all that C92 and C93 assume of a locale (c130_reads, c130_knows, c130_same). The stream buffer is the list of the remaining characters, as in C92. |
| C131 | The template instantiations of the switch dispatcher (32 cases and a default per level) and of the tables of functions, as lists of the calls of the visitor; reading a table. Both lists are shown to contain exactly the combinations of alternatives (induction over the number of variants, and over the blocks of 32); reading the table gives the function for the current alternatives, so that visit with tables equals visit of C84. |
| C132 | Expressions as type, category and constness; callables as pointers to members or other objects; the two overloads of invoke with expression SFINAE and the template Invoke. The specification is the list of seven cases of the standard, as an inductive relation. Case analysis. Unions are not modelled. |
| C133 | `Expected/Swap.lean`: types by their move operations, a swap of their own and an association with std; lookup and overload resolution for `swap(a, b)` in the two contexts; the traits, conditions and noexcept clauses of expected, variant and optional and the operations in the body of expected::swap. Induction over types; case analysis of overload resolution; comparison with a specification of Swappable. |
| C134 | `Expected/Convert.lean`: arguments by type and value category, an arbitrary relation of which types can be made from which; the seven one-argument constructors and the assignment operators of expected with their conditions, overload resolution by reference binding and specialization; constructors of unexpected. Case analysis of overload resolution for an arbitrary program. |
| C135 | `Date/RoundFloat.lean`: trunc, floor, ceil and round of durations with counts of any IEEE format (rounded division, multiplication and subtraction), to integers and to numbers of the format. A quotient below an integer is never rounded up to it (distance at least one unit in the last place of the count), multiples near the count are exact, and one of the two distances in round() is exact. |
| C136 | `Date/UnitRatio.lean`: static_gcd, no_overflow and both overloads of trunc for counts of 64 bits. gcd by induction; reduced parts are pairwise coprime, so that every way to write the ratio is a multiple; nested division towards zero. |
| C137 | `Date/FloatTime.lean`: the constructor of hh_mm_ss with rounded operations of any IEEE format, to_duration, in_conventional_range and operator<<. The truncations are exact by C135; a difference of a number and a smaller integer is a number of the format (it is a multiple of the same power of two), so that neither the differences nor the sums are rounded. |
| C138 | `ThreadPool/HandleValues.lean`: handles in numbered variables with their three members, the implicit move operations and the four member functions; everything else may change the pools arbitrarily. The specification reads from the history which task a variable stands for. Invariant by induction over histories. |
| C139 | `Hexdump/Calls.lean`: types of arguments with what the traits look at, the two traits, deduction with decay, both overloads, and the conditions that the body adds. Case analysis; the text is that of C22. |
| C140 | `OwnContent.lean`: the storage as an optional live object; arguments as references that are read when the code reads them; every path of assignment and emplace of the three classes and the two insertions of SlidingBuffer. Case analysis over contents, arguments and type properties. |
| C141 | `Strings/Inserter.lean`: the loops of `split`, `split` at a regular expression and `tokenize` once more, over an arbitrary state and an arbitrary inserter that may throw; the default inserter and its detection of emplace_back. Spec = one call per part (`Feed`). Induction on the loops, with the parts of C02, C03 and C86. |
| C142 | `Strings/JoinMemory.lean`: both loops of `join` on a string with a capacity and a count of allocations; lengths in size_t arithmetic; max_size, the initial capacity and the growth of buffers are parameters. Induction on the parts. |
| C143 | `Hexdump/Helper.lean`: deduction and overload resolution of `hexdump_stream`, members of the helper that are constants, what its special members need, and the caller's elements as a history of events. Case analysis, induction on the history. |
| C144 | `Text/CatMemory.lean`: the overloads of `cat` and `repeat` on the strings of C142; lengths in size_t arithmetic. Induction on the pieces and repetitions. |

## Where the code does not do what a user would expect

Each of these is proved (`_violated`, or as part of the theorem named) unless it says "not modelled".

* string_view: `substr(pos, n)` with `pos + n` beyond 2^64 gives a wrong view (`c08_substr_violated`); `compare(pos, n, x)` is noexcept but throws out_of_range internally (`c08_compare_terminates_violated`).
* `join` then `split` is not the identity for delimiters longer than one character (`c02_join_split_long_delimiter_violated`).
* `escape` leaves DEL unescaped (`c13_printable_violated`).
* `to_number<float>`: text after the 19th digit is not validated, huge exponents overflow `int`, out-of-range numbers become infinity, zero with a huge exponent is rejected (`c17_…_violated`); the integer version without compiler builtins overflows for signed types (`c16_portable_signed_violated`).
* A copy of the string object that `cat` uses for numbers refers to the original's buffer (`c65_copy_violated`).
* SlidingBuffer: `[]` beyond `size()` shows old elements after a pop (`c25_beyond_size_violated`), for SlidingBufferExposed after enlarging; the exposed range is not in documented order after push_front (`c27_push_front_violated`); a moved-from buffer is unusable before clear() (`c66_moved_from_violated`).
* SmallVector: `push_back(v[0])`/`emplace_back(v[0])` with growth, `insert(pos, v[i])`, `assign(n, v[0])`, `resize(n, v[0])` with growth (`c31_…_violated`); `erase(p, p)` moves elements onto themselves (`c28_erase_empty_violated`); exceptions during shifts and fills leak (`c29_insert_throws_violated`, `c29_fill_throws_violated`); constructors that throw after allocating leak the block (`c29_constructor_leak_violated`); copy construction and assignment are noexcept if copying elements is, but allocate (`c28_noexcept_allocation_violated`); move-only elements with throwing moves lose the strong guarantee (`c32_move_only_violated`). `size + n ≥ 2^32` in insert wraps (excluded by the precondition).
* expected: `emplace` with a throwing constructor destroys the value twice (`c38_emplace_violated`); the catch branches assign to a destroyed object (`c38_restore_error_violated`, `c38_swap_violated`, `c38_copy_assignment_violated`); the converting constructors construct over a live default value (`c38_converting_constructor_violated`); `operator!=` of `expected<void, E>` is inverted for two errors (`c37_void_violated`).
* optional: `emplace(*o)` with an argument that refers to the old value (excluded by precondition, as for std::optional).
* gcd of the most negative value is undefined or negative (`c40_most_negative_violated`); lcm(0, x) = 0 although the documentation promises a positive number, lcm(INT_MIN, 0) is undefined (`c41_…_violated`).
* clamp returns a reference to `lo` where `v` is documented, and `lo` for NaN (`c42_…_violated`); within_abs overflows and `within_abs(-inf, -max, max)` is true through overflow, an infinite tolerance does not cover infinities (`c43_…_violated`); within_orders is wrong for unsigned numbers in ascending order and overflows for signed ones (`c44_violated`).
* median with an integer result type truncates twice (`c45_integer_result_violated`). A non-const lvalue gets the copying overload of `remove_outliers`, so that the documented change in place happens for rvalues only (`c125_remove_lvalue`).
* FinalAction: move assignment onto an object with a pending action drops that action (`c63_move_assignment_violated`).
* type_name cuts spellings with ';' (`c64_semicolon_violated`).
* hexdump_stream on a stream with std::left is ambiguous (`c22_left_violated`), and leaves hex and fill '0' set on the stream (`c22_stream_state`). HexdumpParameterForward with const iterators cannot be copied in C++14 (compile time, not modelled).
* Trigger: a pulse trigger(); reset() can be missed by waiting threads (`c60_pulse_lost_violated`); the destructor does not wait for the threads it wakes (`c61_destroyed_too_early_violated`).
* ThreadPool: cancel() on a running task empties the future of the handle (`c58_cancel_running_violated`); after get_result() the handle reports "canceled" (`c58_after_result_violated`); after cancel_pending_tasks() or destruction handles report "complete" and get_result() throws broken_promise (`c58_cancel_all_violated`); with delayed tasks a due task can wait although a worker sleeps without deadline (`c55_delayed_violated`); destroying the pool from one of its own tasks ends the program (`c57_self_destruction_violated`); add_task called by a task during destruction throws bad_weak_ptr (`c49_destruction_violated`). Function objects of canceled tasks are destroyed under the lock (not modelled).
* date.h: converting day counts beyond the year 32767 silently reduces the year to 16 bits; the largest 719468 counts of int overflow (`c71_from_days_outside`). The year -32768 converts correctly but is not `ok()` (`c72_ok`). operator<< of year_month_day writes years without padding, that of year with four digits (`c79_date`, `c79_year`).
* `to_number<double>` does not read small integers exactly: "109" gives the next larger double (also 110 to 116, 201, ...); `to_number<long double>("105")` gives the next smaller number (`c88_double_violated`, `c88_long_double_violated`). The mantissa is divided by a power of ten first and the rounding error is multiplied back; float is not affected because the arithmetic is done in double (`c88_float`).
* within_ulp accepts numbers up to almost twice as many steps apart as allowed (documented: "allowed number of floating point steps"): the largest double below 2 and the number three steps below it are within 2 (`c89_violated`); nothing within the allowed number of steps is rejected (`c89_steps`).
* format: `%F` writes the years -999 to -1 as 00-1-01-01 and the like (the sign is padded), `%D` writes 01/01/-1, `%I` writes hours above 12 for durations from 24 hours on (`c90_violated`). `%R` writes negative durations without a sign and `%j` puts it between the digits (`c91_violated`). For the last days of the year 32767 the ISO week number overflows the 16-bit year; the theorems leave out two years at either end of the range.
* parse does not read back what format writes for years beyond four digits, `%e` with days below 10 (the blank), `%Y` together with `%y` for the last year of a century before 0, `%y` together with `%g` when the ISO year is in another century, and `%H` together with `%I` without `%p` in the afternoon (`c92_violated`).
* parse accepts days that the year does not have ("2021 366" with "%Y %j" gives the first of January 2021, "2021 000" the 31st of December 2021) and ISO weeks that the year does not have, ignores `%C` unless `%y` or `%D` is there too, does not look at a lone `%G` or `%V` if `%U` or `%W` with the weekday is used, and takes a month or day of zero for a missing one (`c93_violated`). `%p` is ignored unless `%I` is there too ("13 AM"), and what follows `%t` in the format is ignored if the text ends there (`c93_names_violated`). A lone "." is accepted as a number of seconds (0). For time points the previous value of the caller's offset variable is subtracted if the format has no `%z` (part of the statement of `c93_sys_time_partial`).
* parse has undefined behaviour for texts that any user can type: "2023-01-01-x" with `%F%z` (the smallest number of minutes is negated), a year of -2147483648 with `%10Y`, 99999999999 seconds with `%S` into nanoseconds, the year 2300 into a time point of nanoseconds (`c94_violated`). So it has with widths above 7: a week of nine digits (`%9V`), a century of eight (`%8C%y`), a width that does not fit into an int (`c94_widths_violated`).
* SlidingBuffer::resize() rotates the elements before it allocates: if there is not enough memory (std::bad_alloc, std::length_error), the elements are in another order afterwards. push_front() counts the new element before it is assigned. SlidingBufferExposed::resize() sets the flag for a filled buffer before it rotates the elements: if that throws, size() and back() contradict each other (`c95_violated`).
* Moving an expected copies it, or does not compile although std::is_move_constructible says that it does, if rvalues of both types are constructed trivially and copying is not trivial for both: every expected_storage_base declares a destructor and so has no move constructor, and the trivial specialisation of expected_move_base relies on one. The same holds for move assignment (`c99_move_construct_violated`, `c99_move_assign_violated`).
* If a thread of a new ThreadPool but the first cannot be started, std::terminate is called because the started ones are joinable when the vector is destroyed (`c100_construct_violated`); the same happens if the memory for the list of running tasks runs out in a worker (`c100_worker_violated`).
* A task that calls add_task can end up in the destructor of its own pool while it holds the mutex, if the outside thread destroys its shared pointer at this moment: the temporary of shared_from_this() is the last pointer (`c101_add_task_violated`). With TaskHandle::cancel() and get_state() the worker destroys the pool without the mutex and then joins itself (`c101_handle_violated`). A function object that owns the last pointer is destroyed under the mutex (`c101_function_violated`).
* within_orders returns false for two equal infinities: their difference is NaN (`c103_equal_violated`).
* No span can be made from a `std::array` whose element type is const (`c105_complete_violated`).
* add_task with a delay adds it to the current time without a check: a very long delay (Duration::max()) is undefined behaviour (`c106_delay_violated`).
* A variant with an alternative that can be copied but has a deleted move constructor claims to be copy assignable, but the assignment does not compile (`c107_copy_assign_violated`).
* trim_sv, trim_left_sv and trim_right_sv return a view of a string literal, not one "that points into the input string", if the text consists of whitespace (`c110_trim_sv_violated`).
* replace_inplace reads its needle and its hammer after it has modified the text: undefined behaviour if one of them is a view of the text (`c111_needle_violated`, `c111_hammer_violated`).
* The pool moves function objects in add_task, and destroys executed and cancelled tasks, while it owns its mutex: a constructor or destructor of a function object that calls the pool blocks itself and everybody else (`c112_constructor_violated`, `c112_destructor_violated`).
* parse with `%d%` accepts "5", although the percent sign is missing (it is demanded only if the end of the input was not seen), and with `%d%05q` it demands "%5q" instead of "%05q" (`c114_violated`).
* parse of a `year_month` succeeds if the format has no year, and stores the year -32768; a century that contradicts the year is not noticed (`%C/%Y` reads "30/2023"); parse of a `month_day` accepts 30 February (`c118_violated`).
* expected: or_else on an rvalue passes the error as an rvalue to a function without result and makes its result from the object afterwards; if the function takes the error by value, the result carries the moved-from error (`c121_or_else_void_violated`).
* Hours and minutes of a time of day, the index of a weekday and invalid months and weekdays are written with the flags of the stream: ten hours in a stream that is set to hexadecimal give `a:00:00` (`c123_flags_violated`). A width is ignored (and kept) by days, years and dates, and pads the space between date and time of a point in time (`c123_width_violated`).
* optional (`optional.h:333-388`): the copy and move operations of `optional` are user-provided and not constrained. `std::is_copy_constructible<optional<T>>` and the other traits are therefore true for every `T`, and a copy of an `optional<std::unique_ptr<…>>` fails to compile inside the library instead of being rejected by overload resolution; `optional<int>` is not trivially copyable. `std::optional`, which the documentation refers to, differs in both (`c124_traits_violated`).
* statistics: `remove_outliers(begin, end, k)` does not compile, for no iterators: `make_view` returns an rvalue, for which the overload that erases elements in place is a better match than the one that copies, and a view has no `erase()` (`c125_remove_range_violated`). For the same reason `remove_outliers` rejects a constant rvalue and an rvalue `std::array`, while lvalues of these types are fine (`c125_remove_rvalue_violated`).
* add_task: function objects without arguments are wrapped in a closure that is not `mutable` and whose return type is deduced. So `pool->add_task([n = 0]() mutable { ... })` does not compile (`c126_mutable_violated`), and neither does a function `T& f()` (`c126_reference_violated`), although both are fine with a parameter of type `ThreadPool&`. The result of std::bind can be called with and without further arguments and makes the call ambiguous (`c126_both_violated`).
* SmallVector: the constructor and assign for ranges call std::distance and then copy. With std::istream_iterator the first pass uses up the values: size() is the number of values, but only the first element is constructed (`c127_istream_violated`); with std::istreambuf_iterator none is (`c127_istreambuf_violated`). insert of a range adds a number to the iterator and compiles only for random access iterators, not for those of std::list (`c127_insert_violated`). The documentation asks for input iterators.
* cat: an argument of type `long double` does not compile, because all constructors for numbers are equally good (`c128_long_double_violated`); `std::to_string`, to which the documentation refers, accepts it.
* Iterators: rbegin() and rend() of SmallVector and of the sliding buffers cannot be called for constant containers (`c129_reverse_const_violated`), and crbegin() and crend() of SmallVector are not const member functions, so that a constant SmallVector cannot be gone through backwards (`c129_small_vector_violated`). crbegin() of a SlidingBuffer can be called, but `*buf.crbegin()` does not compile: the member type `reference` of the iterator is `value_type&` also for constant buffers (`c129_sliding_buffer_violated`).
* C130: Without std::locale, `%B` for a month that is not valid, written to a stream that does not throw, reads the table of names before its beginning (`c130_invalid_month_violated`); extract_month sets failbit and returns 0, and the conversion goes on. `format` is not affected, because its stream throws.
* C132: is_invocable_r<void, F, Args...> (before C++17) is false for every callable that returns something, although a result can always be discarded (`c132_void_violated`). invoke_result and is_invocable call invoke without qualification: if a namespace of an argument has an equally good function template of this name, the call is ambiguous and is_invocable is false (`c132_adl_violated`).
* C133 `expected<T, E>::swap()` and `swap(a, b)` do not exist if `T` or `E` is associated with namespace std and has no swap of its own, e.g. `expected<int, std::error_code>` or an error class derived from `std::runtime_error`: in `swap_adl_tests` (expected.h:253-271) the general `std::swap` found by argument-dependent lookup is ambiguous with the tag overload, and `is_swappable` is false (`c133_std_types_violated`).
* C133 `expected<void, E>` has no swap, as `is_swappable<void>` is false (expected.h:1816); the overloads for void (1735, 1744) are never used (`c133_void_violated`).
* C133 `swap()` of two errors calls `std::swap` for `unexpected<E>` (expected.h:1831-1833) and never the swap of `E`; its noexcept clause (1820-1824) asks about the swap of `E`. If that is noexcept but the move assignment of `E` throws, the program is terminated (`c133_noexcept_violated`, `c133_own_swap_violated`).
* C133 `expected::swap()` is offered, but does not compile, for error types with a swap of their own that cannot be moved (expected.h:1815-1819 does not ask for it), and the free `swap` is offered, but does not compile, if both move constructors may throw (2212-2218) (`c133_hard_error_violated`). `is_nothrow_swappable` looks at the moves of the elements of an array even if they have a swap of their own (`c133_array_violated`).
* C134 `expected<bool, E>` constructed from an `expected<U, G>` of another type (even `expected<bool, G>`) always holds a value, namely whether the argument holds one: `is_constructible<bool, expected<U, G>>` is true because of the explicit operator bool, so the value constructor is taken and the converting ones are disabled (expected.h:323-341, 1545-1557). An error becomes the value `false` (`c134_bool_violated`; fixed in std::expected by LWG 3836).
* C134 A non-const variable of type `unexpected<G>`, `G` other than `E`, is stored as a value if `T` can be made from it, e.g. if `T` is std::any (expected.h:328 excludes `unexpected<E>` only, the assignment at 1559-1618 not even that), and copying a non-const `unexpected<E>` makes a nested error if `E` is such a type (159-162) (`c134_error_violated`, `c134_assign_error_violated`, `c134_unexpected_violated`).
* C134 `e = make_unexpected("text")` for an `expected<T, std::string>` does not compile: operator=(unexpected<G>&&) accepts every `G` (expected.h:1635-1637) but its body needs `unexpected<E>`; construction works (`c134_assign_error_violated`).
* C135 To a shorter unit, floor can be greater than the duration: `floor<milliseconds>(duration<double>{0.57})` is 570 ms although the double is less than 0.57, since the product is rounded first (date.h:1184-1197; the functions of the standard library do the same) (`c135_finer_violated`).
* C136 trunc between units whose ratio overflows 64 bits goes through whole seconds (date.h:1155-1169) and loses the fraction: 100 units of 999999999/10^10 s are 1.000000008 units of 10^10/1000000009 s, but trunc gives 0 (`c136_trunc_violated`). Units of whole seconds, or parts of 1/n converted to whole seconds, are not affected.
* C137 `hh_mm_ss` of floating-point seconds is written with the seconds rounded to six digits, after the minutes have been split off: 59.9999999 s is written as `00:00:60.000000`, and 9.9999999 s as `00:00:010.000000` since the leading zero is chosen before rounding (date.h:3586-3597) (`c137_text_violated`, for all numbers in these intervals).
* C138 TaskHandle::cancel() clears the future before it looks for the pool (ThreadPool.h:175-176): a call that throws because the pool is gone, or that returns false, still makes the result unavailable (`c138_cancel_violated`).
* C139 `hexdump("text", "prompt")` compiles as a range of two unrelated pointers and is undefined behaviour (hexdump.h:218-224; `c139_literal_violated`). Containers of bool pass the traits, but std::make_unsigned<bool> does not exist (hexdump.h:148; `c139_bool_violated`). Iterators with non-member operators are rejected (hexdump.h:95-96; `c139_member_violated`).
* C140 `e = e.error()` for an expected whose value type can be made from the error (such as expected<std::string, std::string>) destroys the error before it is copied (expected.h:1572-1618; `c140_expected_assign_violated`); std::expected copies first if the copy can throw. `emplace` of optional, expected and variant with a reference to the content reads a destroyed object (`c140_emplace_violated`), as in the standard library.
* C143: `hexdump_stream` for two iterators or for a named container returns `HexdumpParameterForward<const IteratorT>`. Its members `begin_` and `end_` are constants, so that its copy and move operations, which assign to them, do not compile, and `auto h = hexdump_stream(x);` is an error in C++14 (`c143_copies_violated`). A temporary of a type that cannot be default-constructed is not kept in the helper (`c143_temporary_violated`).

## Testing the theorems

`seeded/LOG.jsonl` has one line per wrong program: the definition edited in a scratch copy, the edit, the claim it falsifies, the property theorems that no longer hold (those that fail directly and those that depend on a failing lemma), and the theorems that were tightened because the edit was not noticed at first.

## Axioms of each property theorem

* no axioms: OptRef.c67_objects_untouched, SV.c96_swap, SlidingBuffer.c95_clear, SmallVector.Iterators.c127_compiles, Text.c20_safe_string_null
* `propext`: Containers.Traversal.c129_reverse_const_violated, Containers.Traversal.c129_sliding_buffer_violated, Containers.Traversal.c129_small_vector_violated, Conv.c134_assign_value, Conv.c134_error_const, Conv.c134_error_violated, Conv.c134_value, Conv.c134_wraps, Date.c98_cycle_inc, Exp.Overloads.c121_chain, Exp.Overloads.c121_lvalue, Exp.Overloads.c121_or_else_void_partial, Exp.Overloads.c121_or_else_void_violated, Exp.Overloads.c121_rvalue_moves, Exp.Overloads.c121_same_result, Exp.Overloads.c121_same_result_void, Exp.c36_monad_laws, Exp.c36_observers, Exp.c36_on_error, Exp.c36_on_value, Exp.c36_or_else_laws, Exp.c36_results_hold, Exp.c36_void, Hexdump.Helper.c143_copies_partial, Hexdump.Helper.c143_copies_violated, Hexdump.Helper.c143_owns, Integer.c40_most_negative_violated, Integer.c41_zero_violated, NumUtil.c42_agree, NumUtil.c42_clamp_comp, NumUtil.c42_clamp_partial, NumUtil.c42_nan_violated, NumUtil.c42_range, NumUtil.c43_overflow_violated, Opt.Members.c124_compiles, Opt.Members.c124_destructor, Opt.Members.c124_traits_partial, Opt.Members.c124_traits_violated, Opt.c35_optional_nullopt, Opt.c35_order_laws, OptRef.c67_observe, OptRef.c67_rebind, OwnContent.c140_expected_assign_violated, OwnContent.c140_unexpected_partial, OwnContent.c140_unexpected_violated, Pool.AddTask.c126_rejected, SV.c96_views, SlidingBuffer.c25_beyond_size_exposed_violated, SlidingBuffer.c25_beyond_size_violated, SlidingBuffer.c27_empty_violated, SlidingBuffer.c27_push_front_violated, SlidingBuffer.c66_moved_from_violated, SlidingBuffer.c95_violated, SmallVector.Iterators.c127_insert_violated, SmallVector.c28_erase_empty_violated, SmallVector.c28_noexcept_allocation_violated, SmallVector.c29_constructor_leak_violated, SmallVector.c29_fill_throws_violated, SmallVector.c29_insert_throws_violated, SmallVector.c31_assign_violated, SmallVector.c31_insert_violated, SmallVector.c31_push_back_violated, SmallVector.c31_resize_violated, SmallVector.c32_move_only_violated, Spans.c105_complete_violated, Spans.c33_total, Statistics.Range.c125_compiles, Strings.Ins.c141_sequences, Substring.c21_lower, Substring.c21_upper, Swap.c133_array_violated, Swap.c133_own_swap_violated, Swap.c133_void_violated, Text.CatTypes.c128_floats, Text.CatTypes.c128_long_double_violated, Text.c20_repeat, Traits.c132_adl_violated, Traits.c132_invoke, Trigger.c60_pulse_lost_violated, Trigger.c61_destroyed_too_early_violated
* `Quot.sound`: Conv.c134_unexpected_partial, Conv.c134_unexpected_violated
* `Quot.sound`, `propext`: BitManip.c39_out_of_range, CatObjects.c65_shows_partial, Conv.c134_assign_error_partial, Conv.c134_assign_error_violated, Conv.c134_bool_violated, Conv.c134_error_partial, Conv.c134_expected_partial, Conv.c134_same, Date.Parts.c102_duration, Date.Parts.c102_numbers, Date.c72_fields_ok, Date.c72_month_day_ok, Date.c73_minus_days, Date.c74_minus_months, Date.c74_year_month_plus_years, Date.c77_clock, Date.c77_width, Date.c78_abs, Exp.Members.c99_copy_assign, Exp.Members.c99_copy_construct, Exp.Members.c99_move_assign_cases, Exp.Members.c99_move_assign_fallback, Exp.Members.c99_move_assign_violated, Exp.Members.c99_move_construct_cases, Exp.Members.c99_move_construct_fallback, Exp.Members.c99_move_construct_violated, Exp.Overloads.c121_const_untouched, Exp.c36_functor_laws, Exp.c37_value, Exp.c37_value_and_unexpected, Exp.c37_void_partial, Exp.c37_void_violated, Exp.c38_converting_constructor_violated, Exp.c38_copy_assignment_violated, Exp.c38_copy_constructor_violated, Exp.c38_emplace_violated, Exp.c38_no_exception_partial, Exp.c38_restore_error_violated, Exp.c38_swap_violated, ExpVoid.c38_void_copy_terminates, ExpVoid.c38_void_nothrow_partial, ExpVoid.c38_void_partial, Finalizer.c63_at_most_once, Finalizer.c63_move_assignment_violated, Finalizer.c63_throwing_action, Integer.c41_most_negative_violated, NumUtil.c42_reference_violated, NumUtil.c43_symmetric, Opt.Members.c124_exceptions, Opt.Members.c124_noexcept_given, Opt.Members.c124_noexcept_kept, Opt.c34_observers, OwnContent.c140_emplace_partial, OwnContent.c140_emplace_violated, OwnContent.c140_expected_assign_partial, OwnContent.c140_optional_assign, OwnContent.c140_sliding_buffer, OwnContent.c140_variant_assign_violated, Pool.AddTask.c126_both_violated, Pool.AddTask.c126_exactly, Pool.AddTask.c126_mutable_violated, Pool.AddTask.c126_reference_violated, Pool.AddTask.c126_sound, Pool.AddTask.c126_with_pool, Pool.AddTask.c126_without_arguments_partial, Pool.Linear.c116_atomic, Pool.Own.c101_add_task_violated, Pool.Own.c101_function_violated, Pool.Own.c101_handle_violated, Pool.Own.c101_kept, Pool.Own.c101_last, Pool.Own.c101_outside, Pool.Own.c101_partial, Pool.Own.c101_when, Pool.Race.c115_mutex, Pool.User.c112_constructor_violated, Pool.User.c112_destructor_violated, Pool.User.c112_functions_partial, Pool.c100_add, Pool.c100_add_points, Pool.c100_names, Pool.c100_worker_partial, Pool.c100_worker_violated, Pool.c106_defined, Pool.c106_delay_violated, Pool.c49_destruction_violated, Pool.c54_terminates, Pool.c55_delayed_violated, Pool.c57_drains_partial, Pool.c57_no_access_after, Pool.c57_no_start, Pool.c57_self_destruction_violated, Pool.c58_after_result_violated, Pool.c58_cancel_all_violated, Pool.c58_cancel_running_violated, SV.c07_defined, SV.c07_find, SV.c07_find_first_of, SV.c07_find_last_of, SV.c07_rfind, SV.c08_at, SV.c08_front_back, SV.c08_remove_suffix, SV.c08_substr_throws, SV.c09_total_order, SV.c96_cstring, SV.c96_string, SV.c96_string_round_trip, SlidingBuffer.c23_push_zero_capacity, SmallVector.Iterators.c127_istream_violated, SmallVector.Iterators.c127_istreambuf_violated, SmallVector.Iterators.c127_single_pass_partial, Spans.c105_complete_partial, Spans.c105_const, Spans.c105_elements, Spans.c105_extent, Spans.c105_unique, Spans.c33_access, Spans.c33_as_bytes, Spans.c33_eq, Spans.c33_first, Spans.c33_order, Spans.c33_write, Statistics.Range.c125_remove_range_violated, Statistics.Range.c125_remove_rvalue_violated, Statistics.c46_min_max, Stream.c68_insert_view, Stream.c68_padding, Strings.Alias.c111_absent_partial, Strings.Alias.c111_hammer_violated, Strings.Alias.c111_needle_violated, Strings.Ins.c141_set, Strings.Ins.c141_split_empty_delimiter, Strings.JoinMem.c142_one_allocation, Strings.JoinMem.c142_too_long, Strings.c01_join, Strings.c02_split_empty_delimiter, Strings.c06_spec_unique, Substring.c10_char_versions, Substring.c10_contains, Substring.c10_contains_char, Substring.c11_char_versions, Substring.c11_contains_nocase, Substring.c11_ends_with_nocase, Substring.c11_starts_with_nocase, Substring.c21_laws, Substring.c21_strings, Swap.c133_expected_nothrow_trait_partial, Swap.c133_noexcept_partial, Swap.c133_noexcept_violated, Swap.c133_throws_exactly, Text.CatMem.c144_cat, Text.CatMem.c144_cat_too_long, Text.CatMem.c144_repeat, Text.CatMem.c144_repeat_too_long, ThreadPool.HandleValues.c138_cancel, ThreadPool.HandleValues.c138_cancel_violated, ThreadPool.HandleValues.c138_empty, ThreadPool.HandleValues.c138_is_complete, ThreadPool.HandleValues.c138_once, ThreadPool.HandleValues.c138_result, ThreadPool.HandleValues.c138_state, ThreadPool.HandleValues.c138_unique, ToNumber.c16_portable_unsigned, Traits.c132_is_invocable_partial, Traits.c132_is_invocable_r_partial, Traits.c132_void_violated, Trigger.Race.c115_trigger, Trigger.c59_level, Trigger.c59_no_lost_wakeup, Trigger.c59_not_early, Trigger.c59_results, Trigger.c59_resume, Trigger.c59_terminates, Trigger.c60_trigger_resumes_partial, Trigger.c61_destructor_resumes_partial, Trigger.c62_sleep, Trigger.c62_standing_trigger, Var.Dispatch.c131_compiles, Var.Dispatch.c131_table, Var.Members.c107_destroy, Var.c83_monostate, Var.c83_order_laws, Var.c84_by_type
* `Classical.choice`, `Quot.sound`, `propext`: BitManip.c39_bit_flip, BitManip.c39_bit_reset, BitManip.c39_bit_set, BitManip.c39_bit_test, BitManip.c39_flip_flip, BitManip.c39_mask, BitManip.c39_test_after, CatObjects.c65_copy_violated, Containers.Traversal.c129_all_partial, Containers.Traversal.c129_forward, Containers.Traversal.c129_reverse_partial, Containers.Traversal.c129_views, Date.AnyFormat.c94_any_calendar_partial, Date.AnyFormat.c94_any_time_partial, Date.AnyFormat.c94_widths_violated, Date.FloatDur.c135_finer, Date.FloatDur.c135_finer_violated, Date.FloatDur.c135_same_unit, Date.FloatDur.c135_to_float, Date.FloatDur.c135_to_integer, Date.FloatDur.c135_trunc, Date.FloatDur.c135_undefined, Date.FloatTime.c137_conventional, Date.FloatTime.c137_parts, Date.FloatTime.c137_text_partial, Date.FloatTime.c137_text_violated, Date.FloatTime.c137_undefined, Date.Incomplete.c113_date_and_weekday, Date.Incomplete.c113_day, Date.Incomplete.c113_month, Date.Incomplete.c113_month_day, Date.Incomplete.c113_no_date, Date.Incomplete.c113_weekday, Date.Incomplete.c113_year, Date.Incomplete.c113_year_month, Date.Keyword.c130_accepted_date_partial, Date.Keyword.c130_accepted_local_time_partial, Date.Keyword.c130_accepted_sys_time_partial, Date.Keyword.c130_invalid_month_violated, Date.Keyword.c130_knows, Date.Keyword.c130_names, Date.Keyword.c130_reads, Date.Keyword.c130_round_trip_date_partial, Date.Keyword.c130_round_trip_sys_time_partial, Date.Keyword.c130_same, Date.Keyword.c130_scan, Date.Keyword.c130_write_partial, Date.Names.c92_names_date_partial, Date.Names.c92_names_local_time_partial, Date.Names.c92_names_sys_time_partial, Date.Out.c123_calendar_partial, Date.Out.c123_date_any_stream, Date.Out.c123_field_any_stream, Date.Out.c123_flags_violated, Date.Out.c123_state, Date.Out.c123_state_times, Date.Out.c123_sys_time_partial, Date.Out.c123_time_of_day_partial, Date.Out.c123_to_stream, Date.Out.c123_weekday_partial, Date.Out.c123_width_partial, Date.Out.c123_width_violated, Date.Parts.c102_calendar, Date.Parts.c102_form, Date.Parts.c102_units, Date.Parts.c102_weekday, Date.Parts.c102_weekday_form, Date.Parts.c118_day_partial, Date.Parts.c118_month_day_partial, Date.Parts.c118_month_partial, Date.Parts.c118_violated, Date.Parts.c118_weekday_partial, Date.Parts.c118_year_month_partial, Date.Parts.c118_year_partial, Date.Parts.c119_day, Date.Parts.c119_month, Date.Parts.c119_month_day, Date.Parts.c119_weekday, Date.Parts.c119_year, Date.Parts.c119_year_month, Date.Plain.c114_cut_off_partial, Date.Plain.c114_meaningless_partial, Date.Plain.c114_violated, Date.Sequence.c122_date, Date.Sequence.c122_duration, Date.Sequence.c122_file, Date.Sequence.c122_local_time, Date.Sequence.c122_sys_time, Date.UnitRatio.c136_ratio, Date.UnitRatio.c136_trunc_partial, Date.UnitRatio.c136_trunc_violated, Date.Words.c93_names_date_partial, Date.Words.c93_names_local_time_partial, Date.Words.c93_names_sys_time_partial, Date.Words.c93_names_violated, Date.c71_calendar_bijection, Date.c71_day_overflow, Date.c71_from_days, Date.c71_from_days_outside, Date.c71_representable, Date.c71_round_trip, Date.c71_round_trip_days, Date.c71_to_days, Date.c72_from_days_ok, Date.c72_last, Date.c72_last_day, Date.c72_leap, Date.c72_ok, Date.c73_cycle, Date.c73_minus, Date.c73_ok, Date.c73_plus, Date.c73_weekday, Date.c74_date_plus_months, Date.c74_date_plus_years, Date.c74_days, Date.c74_month_minus, Date.c74_month_plus, Date.c74_year_month_inverse, Date.c74_year_month_minus, Date.c74_year_month_plus, Date.c75_from_days, Date.c75_index_steps, Date.c75_last, Date.c75_last_ok, Date.c75_ok, Date.c75_to_days, Date.c76_order, Date.c76_total, Date.c76_year_month, Date.c77_conventional, Date.c77_exact, Date.c77_ranges, Date.c77_to_duration, Date.c78_ceil, Date.c78_exact, Date.c78_floor, Date.c78_round, Date.c78_trunc, Date.c79_date, Date.c79_injective, Date.c79_not_a_date, Date.c79_sys_time, Date.c79_time_of_day, Date.c79_year, Date.c90_date_partial, Date.c90_duration_partial, Date.c90_local_time_partial, Date.c90_sys_time_partial, Date.c90_violated, Date.c91_negative_partial, Date.c91_violated, Date.c92_date_partial, Date.c92_duration_partial, Date.c92_local_time_partial, Date.c92_reads_partial, Date.c92_sys_time_partial, Date.c92_told_complete, Date.c92_violated, Date.c93_date_partial, Date.c93_duration_partial, Date.c93_local_time_partial, Date.c93_sys_time_partial, Date.c93_violated, Date.c94_calendar_partial, Date.c94_duration_fits_partial, Date.c94_local_time_fits_partial, Date.c94_sys_time_fits_partial, Date.c94_time_partial, Date.c94_violated, Date.c98_day_year_inc, Date.c98_indexed, Date.c98_last_order, Date.c98_month_day, Date.c98_month_weekday_equal, Date.c98_month_weekday_last_ok, Date.c98_month_weekday_ok, Date.c98_numbers, Date.c98_ok, Date.c98_order, Date.c98_order_inner, Date.c98_plus_months, Date.c98_plus_months_last, Date.c98_plus_months_weekday, Date.c98_plus_years, Date.c98_total, Date.c98_weekday_equal, Date.c98_weekday_last_equal, Date.c98_year_difference, Exp.Members.c99_move_assign_partial, Exp.Members.c99_move_construct_partial, Exp.c38_exceptions_partial, Finalizer.c63_as_documented_partial, Finalizer.c63_exactly_once_partial, Finalizer.c63_never_lost_partial, Hexdump.Calls.c139_bool_violated, Hexdump.Calls.c139_container_partial, Hexdump.Calls.c139_literal_violated, Hexdump.Calls.c139_member_violated, Hexdump.Calls.c139_only, Hexdump.Calls.c139_range_partial, Hexdump.Helper.c143_dangling, Hexdump.Helper.c143_named_container, Hexdump.Helper.c143_temporary, Hexdump.Helper.c143_temporary_violated, Hexdump.c22_hexdump, Hexdump.c22_left_violated, Hexdump.c22_read_back, Hexdump.c22_stream_partial, Hexdump.c22_stream_state, Hexdump.c69_forward, Integer.c40_gcd_partial, Integer.c40_gcd_unsigned, Integer.c40_terminates, Integer.c41_lcm_partial, NumUtil.c103_accuracy, NumUtil.c103_equal_partial, NumUtil.c103_equal_violated, NumUtil.c103_many_digits, NumUtil.c103_special, NumUtil.c103_symmetric, NumUtil.c43_float, NumUtil.c43_float_special, NumUtil.c43_float_symmetric, NumUtil.c43_infinite_tolerance_violated, NumUtil.c43_integer_partial, NumUtil.c43_narrow_partial, NumUtil.c43_overflow_to_infinity_violated, NumUtil.c43_unsigned, NumUtil.c44_float, NumUtil.c44_float_mono, NumUtil.c44_float_symmetric, NumUtil.c44_float_zero, NumUtil.c44_integer_partial, NumUtil.c44_narrow_partial, NumUtil.c44_unsigned_partial, NumUtil.c44_violated, NumUtil.c89_distance_partial, NumUtil.c89_special, NumUtil.c89_steps, NumUtil.c89_symmetric, NumUtil.c89_violated, NumUtil.c89_zero, Opt.c34_history, Opt.c34_step, Opt.c35_hash, Opt.c35_optional_optional, Opt.c35_optional_value, OwnContent.c140_variant_assign_partial, Pool.Race.c115_thread_pool, Pool.c100_construct_partial, Pool.c100_construct_violated, Pool.c106_delay_partial, Pool.c106_due, Pool.c108_calls_return, Pool.c108_destruction_ends, Pool.c108_due_task_finishes, Pool.c108_due_task_starts, Pool.c108_result_available, Pool.c49_add, Pool.c49_bounded, Pool.c49_constructor, Pool.c50_at_most_once, Pool.c50_life, Pool.c50_never_lost, Pool.c51_monotone, Pool.c51_not_early, Pool.c52_cancel_all, Pool.c52_cancel_false, Pool.c52_cancel_true, Pool.c52_running_unaffected, Pool.c53_first_due, Pool.c53_order, Pool.c53_serial, Pool.c54_due_tasks_run, Pool.c54_no_lost_wakeup, Pool.c55_count_partial, Pool.c55_work_conserving_partial, Pool.c56_answers, Pool.c56_consistent, Pool.c57_joined, Pool.c58_get_state, Pool.c58_get_state_partial, Pool.c58_is_complete, Pool.c58_is_complete_partial, Pool.c70_at_most_once, Pool.c70_available, Pool.c70_get_result, SV.c07_find_first_not_of, SV.c07_find_last_not_of, SV.c08_compare_terminates_violated, SV.c08_copy, SV.c08_remove_prefix, SV.c08_substr_partial, SV.c08_substr_violated, SV.c09_compare, SV.c09_operators, SV.c09_operators_defined, SV.c96_compare, SV.c96_compare_throws, SV.c96_operators_cstring, SV.c96_operators_string, SV.c96_search_char, SV.c96_search_cstring, SV.c96_search_pointer, SV.c96_search_whole, SV.c96_search_whole_char, SlidingBuffer.c23_bounded, SlidingBuffer.c23_deque, SlidingBuffer.c24_resize, SlidingBuffer.c25_at, SlidingBuffer.c25_beyond_size_partial, SlidingBuffer.c25_index_in_capacity, SlidingBuffer.c26_arithmetic, SlidingBuffer.c26_iteration, SlidingBuffer.c26_stable, SlidingBuffer.c26_stream, SlidingBuffer.c27_contains_all, SlidingBuffer.c27_filled, SlidingBuffer.c27_push_back_partial, SlidingBuffer.c27_push_front_partial, SlidingBuffer.c66_moved_from_clear_partial, SlidingBuffer.c95_own_element, SlidingBuffer.c95_push_back_partial, SlidingBuffer.c95_push_front_partial, SlidingBuffer.c95_resize_partial, SlidingBuffer.c95_usable_partial, SlidingBuffer.c95_valid_partial, SmallVector.Iterators.c127_container_range, SmallVector.c28_access, SmallVector.c28_call, SmallVector.c28_equal, SmallVector.c28_history, SmallVector.c28_sample, SmallVector.c28_shows, SmallVector.c29_all_freed, SmallVector.c29_balance, SmallVector.c29_no_dead_access_partial, SmallVector.c30_amortized, SmallVector.c30_bounds, SmallVector.c30_full_reachable, SmallVector.c30_geometric, SmallVector.c30_length_error, SmallVector.c30_no_reallocation, SmallVector.c30_reserve_shrink, SmallVector.c30_stable, SmallVector.c31_own_element_partial, SmallVector.c32_strong_partial, Spans.c105_pointers, Spans.c33_compose, Spans.c33_last, Spans.c33_subspan, Spans.c33_subspan_rest, Statistics.Range.c125_container, Statistics.Range.c125_range, Statistics.Range.c125_remove_lvalue, Statistics.Range.c125_remove_range_partial, Statistics.Range.c125_remove_rvalue, Statistics.c45_integer_result_violated, Statistics.c45_mean, Statistics.c45_mean_bounds, Statistics.c45_median, Statistics.c45_median_bounds, Statistics.c45_median_perm, Statistics.c46_float, Statistics.c46_integer, Statistics.c47_count, Statistics.c47_removed, Statistics.c48_rms, Statistics.c48_small, Statistics.c48_standard_deviation, Statistics.c48_translation, Statistics.c48_zero, Statistics.c97_mean, Statistics.c97_mean_exact, Statistics.c97_mean_limits, Statistics.c97_median, Statistics.c97_median_limits, Statistics.c97_nan, Statistics.c97_not_nan, Statistics.c97_outliers, Statistics.c97_outliers_count, Statistics.c97_rms, Statistics.c97_rms_limits, Statistics.c97_standard_deviation, Strings.Alias.c111_own_partial, Strings.Ins.c141_split, Strings.Ins.c141_split_regex, Strings.Ins.c141_tokenize, Strings.Views.c110_split_sv, Strings.Views.c110_tokenize_sv, Strings.Views.c110_trim_sv_partial, Strings.Views.c110_trim_sv_violated, Strings.c01_split_join, Strings.c02_join_split, Strings.c02_join_split_long_delimiter_violated, Strings.c02_no_delimiter_in_parts, Strings.c02_split_cuts, Strings.c03_tokenize, Strings.c03_tokenize_total, Strings.c03_tokens_clean, Strings.c04_replace, Strings.c04_replace_is_split_join, Strings.c04_replace_total, Strings.c05_replace_inplace, Strings.c06_trim, Strings.c06_trim_compose, Strings.c06_trim_idempotent, Strings.c06_trim_left, Strings.c06_trim_right, Strings.c86_literal, Strings.c86_no_delimiter, Strings.c86_split, Strings.c86_weave, Substring.c10_ends_with, Substring.c10_starts_with, Substring.c11_equals_nocase, Substring.c11_recasing, Swap.c133_compiles_partial, Swap.c133_expected_trait_partial, Swap.c133_hard_error_violated, Swap.c133_member_partial, Swap.c133_member_sound, Swap.c133_std_types_violated, Swap.c133_variant, Text.CatTypes.c128_char, Text.CatTypes.c128_integers, Text.c12_injective, Text.c12_round_trip, Text.c13_ascii, Text.c13_literal, Text.c13_printable_partial, Text.c13_printable_violated, Text.c13_unchanged, Text.c14_unescape, Text.c14_unescape_length, Text.c14_unescape_plain, Text.c14_unescape_total, Text.c15_cat, Text.c19_hex_string, Text.c19_injective, Text.c19_range, Text.c20_safe_string, TimeUtil.c117_nanoseconds, TimeUtil.c117_seconds, TimeUtil.c117_units, TimeUtil.c117_usual_units, ToNumber.c120_double, ToNumber.c120_float, ToNumber.c120_float_exact, ToNumber.c120_inf_nan, ToNumber.c15_float_text, ToNumber.c15_inf_nan_text, ToNumber.c15_signed_read_back, ToNumber.c15_unsigned_read_back, ToNumber.c16_portable_signed_violated, ToNumber.c16_signed, ToNumber.c16_unsigned, ToNumber.c17_accepted_partial, ToNumber.c17_exponent_overflow_violated, ToNumber.c17_inf_nan, ToNumber.c17_no_ub_partial, ToNumber.c17_out_of_range_violated, ToNumber.c17_trailing_garbage_violated, ToNumber.c17_value_partial, ToNumber.c17_zero_exponent_violated, ToNumber.c18_bool, ToNumber.c87_double, ToNumber.c87_float, ToNumber.c87_long_double, ToNumber.c87_overflow, ToNumber.c88_double_partial, ToNumber.c88_double_violated, ToNumber.c88_float, ToNumber.c88_long_double_violated, Trigger.c109_calls_return, Trigger.c109_standing_trigger, Trigger.c109_timed_waits_return, TypeName.c64_semicolon_violated, TypeName.c64_type_name_msvc, TypeName.c64_type_name_partial, Var.Dispatch.c131_compare, Var.Dispatch.c131_same, Var.Members.c107_copy_assign_cases, Var.Members.c107_copy_assign_partial, Var.Members.c107_copy_assign_violated, Var.Members.c107_copy_construct, Var.Members.c107_model, Var.Members.c107_move_assign, Var.Members.c107_move_assign_fallback, Var.Members.c107_move_construct, Var.Members.c107_move_construct_fallback, Var.Members.c107_nothrow, Var.c104_bool, Var.c104_choice, Var.c104_object, Var.c104_same, Var.c104_value, Var.c80_history, Var.c80_never_valueless, Var.c81_call, Var.c81_copy_strong, Var.c81_frame, Var.c81_only_emplace, Var.c81_value_strong, Var.c82_swap, Var.c82_swap_throws, Var.c83_operators, Var.c83_same_alternative, Var.c84_access, Var.c84_visit, Var.c85_hash
