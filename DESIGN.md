# Formal model of bdlib: design

Sources: `/repo/src` (C++), read as text and never built.  Model and proofs: Lean 4.33 in `lean/Verif`.
Properties: `properties.jsonl`.  Status per property: `MANIFEST.json`.  Wrong programs tried: `seeded/LOG.jsonl`.

## 1. Trusted base

* Lean's kernel.
* Lean's axioms `propext`, `Classical.choice` and `Quot.sound`; no theorem in `MANIFEST.json` depends on any
  other (`#print axioms`).  No axiom of our own, no `sorry`, no `native_decide`, no `bv_decide`.
* The reading of the C++ into Lean definitions.  Each definition cites the file and lines it models and says
  where it simplifies.
* The models of what the code calls (section 4).
* The specifications in `Verif/Spec/*` and the definitions at the head of the `Verif/Props/*` files.

Build configuration modelled: release (`NDEBUG`, `assert` is a no-op; the functions with their assertions: C111, C69, C82), C++11, 64-bit `size_t`, 32-bit `int`.
Where the code differs between configurations (`HAVE_MEMMEM`, `HAVE_MMAP`, `CPPUNIT_VERSION`) the model has a
parameter, and theorems hold for both values unless they say otherwise.

## 2. How the code is modelled

| Layer | Lean modules | What it models |
|---|---|---|
| Memory machine | `Machine/*` | heap of `ArrayRef` blocks with reference counts and buffers; the table of live `String`/`Array` objects (`Ref`, `offset`, `sublen`, `my_hash`); undefined behaviour and exceptions as distinct outcomes; uninitialised memory, allocation failure and moved-from elements as arbitrary oracles; ghost: identity of each buffer, contents of each buffer when released |
| RCA operations | `Rca/Model` | every constructor, assignment, mutator and accessor of `ReferenceCountedArray` as a program of the machine, with `String`'s overrides selected by configuration |
| its invariants | `Rca/Core` ... `Rca/Reach` | `WF` (counts = owners, windows inside buffers, hashes), `Caps` (sizes below 2^63), refinement to an environment object -> list; `Reach`: all states of all in-contract histories, including those after exceptions |
| Compound functions | `Prog/*` | `String.cpp`/`Array.h` functions made of calls (`+`, `*`, `sub`, `subst`, `split`, `join`, `trim`, `newsplit` ...) as programs of the same machine, with temporaries and destructors; a Hoare logic (`Runs`) over reachable states |
| Value level | `Str/*` | the same functions and searches and comparisons as functions on lists of bytes, C library abstract |
| Base64, C strings | `B64/*`, `Cstr/*` | byte loops with explicit bounds; out of bounds is UB |
| `cleanse` | `Cleanse` | the wiping loop on bytes and addresses |
| Stream | `Stm/*` | contents, capacity, position; `read`/`write` on descriptors, `mmap`, stdio |
| AtomicFile | `Af/*` | file system with directory history and unsynced data, crash states, failing calls |
| istream | `Ios/*` | `>>` and `getline` on stream state bits |
| HashTable | `Hash/*`, `Prog/Table.lean` | wrapper over buckets with arbitrary growth; on the memory machine for Strings |
| Tcl | `Tcl/*` | integer casts, command dispatch and registry, scripts, linked variables, against a model of the Tcl API used |
| Threads | `Conc/*` | interleavings of accesses to shared counts and buffers |

## 3. Per property: what is modelled and how it is proved

"Machine" = theorem about every state reachable by any in-contract history of the memory machine, by
invariant.  "Value" = theorem about value-level functions for all byte strings, by induction.  Where the code
violates the English statement the strongest true restriction is proved under the suffix `_partial`, and the
violation is itself proved on a concrete reachable witness (`_refuted_`).

| Id | Model, method, what is missing |
|---|---|
| C01 | Machine; refinement: an operation changes the abstract environment only at its receiver. Fails for public `reserve()` on shared storage. |
| C02 | Machine; invariant count = number of owners, block live iff owned. |
| C03 | Machine; no in-contract history reaches UB. `c_str()` on exact-size Strings does. |
| C04 | Machine; cached hash is 0 or the hash of the contents. Stale after writes through `front()`/`back()`/`read()`, from every reachable state (`c04_front_stale`). |
| C05 | Machine; all append overloads are list append. |
| C06 | Machine; splice spec. `insert(0, x)` with `x` longer than the receiver replaces. |
| C07 | Machine; overwrite spec. `replace(length(), item)` writes past the end; slice assignment follows the code's `len` (see C65). |
| C08 | Machine; slice spec. Negative `len` before `start` underflows; lengths >= 2^31. |
| C09 | Machine; cells added by `resize(n)` arbitrary. `String::resize(npos)` wraps. |
| C10 | Machine; `drop`/`take`. Empty receivers underflow; negative counts. |
| C11 | Machine; throws exactly when out of range, with the state unchanged. |
| C12 | Machine; restricted to unshared storage, or to an object that comes first and contains what its sharers show (`Props/C12Shared.lean`, which says exactly what every sharer shows afterwards in the other cases). |
| C13 | Machine with allocation oracle; others keep their values. The receiver itself may lose its contents. |
| C14 | Machine, both configurations. Stale length of moved-from objects in production builds. |
| C15 | Machine. |
| C16 | Machine with raw pointers carrying buffer identity. Dangling arguments refuted. |
| C17 | Machine, `String` configuration. Exact-size Strings excluded: `c_str()` of every String whose elements end with its storage is undefined (`c17_refuted_end`). |
| C18 | Machine; any sequence of queue operations on an `Array` = operations on a list. |
| C19 | Machine. `front()`/`back()`/`read()` refuted; exactly which objects change is `c19_front_exact`. |
| C20 | Value (`Str/Model`, `Str/Search`): the two loops of `find`/`rfind` as recursion on the list; result = least/greatest index holding the element, by induction. Relative to `pos`, as in the code. |
| C21 | Value; both `_find` variants (`memmem`, and the fallback loop of `String.cpp`). Result = least index at which the text occurs (Spec/Strings.lean). The fallback misses matches after a false start, and `find(str, pos)` is relative to `pos`: refuted. |
| C22 | Value; the downward loop; result = greatest index not below `lpos` at which the text occurs, by induction on the index. |
| C23 | Value; the searches of C21 and C22 after lower-casing both texts. `rifind` ignores its lower bound: refuted. |
| C24 | Value (`Str/Order`); `compare` = sign of lexicographic comparison; total order laws from it. The length difference is an `int`: refuted from 2^31 on. |
| C25 | Value; as C24 on the first `n` bytes. The same truncation. |
| C26 | Value with the C string as bytes and a NUL; reading behind the NUL is UB. A String with a NUL inside gets there: refuted. |
| C27 | Value, any element type with decidable equality: the loop decides equality of the lists. |
| C28 | Value (`Str/Cut`): `split` as the loop of the code over positions; specification: a relation (each piece ends before the leftmost delimiter; a delimiter at the end of the text ends the last piece) from which the join follows. With a limit, without `memmem`, and from 2^31 bytes on: what holds instead, and refutations. |
| C29 | Value; the same loop with a space, which skips runs of spaces; specification: a relation on text and words. Without `memmem` and from 2^31 bytes on as C28. |
| C30 | Value; `sub` as recursion on the rest of the text; specification: a relation (leftmost occurrence replaced, rest continued behind it) with exactly one result. Empty search text: no fuel is enough, refuted. |
| C31 | Value; `subst` as a fold of `sub`; independence of the order for mappings that cannot meet. Empty values refuted. |
| C32 | Value; `newsplit` splits the text as token, delimiter, rest (uniqueness as in C28), for less than 2^31 bytes (`slice` takes an `int`). |
| C33 | Value; `trim`, `chomp`: the text is prefix, result, suffix with only removable characters in both and none at the ends of the result. |
| C34 | Value; `operator*` = concatenation of n copies, by induction on n, for results that fit in memory. |
| C35 | Value; the size computed by `join` in 64 bit arithmetic and the text put together; specification: intercalation. All elements empty with an empty delimiter wraps: refuted. |
| C36 | Value; the full text that `vsnprintf` formats is the argument; the buffer of 4096 bytes and what is copied from it. Longer texts refuted. |
| C37 | Byte model with bounds (`B64/Model`); specification: RFC 4648 on bit strings (Spec/Base64.lean); induction over blocks of three bytes. |
| C38 | The same model with the decoding loop and its table; decoding what C37 gives is the identity, by induction over the blocks. |
| C39 | Byte model: a read or write outside the arrays is UB. No UB for lengths that are multiples of four; refuted for others. |
| C40 | The alphabet as a parameter: 64 different characters below 128 give the round trip; characters of 128 and more index before the table: refuted. |
| C41 | Byte arrays with bounds (`Cstr/Model`): the copy loop; result, final contents and absence of UB for all sizes, by induction. |
| C42 | The same for the append loop, which first looks for the end of `dst`; without a NUL in it the code reads one byte too many: refuted. |
| C43 | Byte arrays with bounds; the copies are new arrays with the same text. Programs that keep such strings: C97. `str_redup` from inside the old text: refuted. |
| C44 | Stream machine (`Stm/Model`: contents, capacity, position); any sequence of calls against a byte sequence with a cursor (Spec/Stream.lean), by induction over the calls. |
| C45 | The same machine; repeated `getline` gives the unique cutting of the contents at newlines. `getline(max)` may return one byte more: refuted. |
| C46 | `seek` on that machine; positions within the contents are kept. It clamps to the capacity: refuted. |
| C47 | `truncate` and `clear` on that machine; for less than 2^31 bytes (`slice`). |
| C48 | `loadFile`/`writeFile` in both builds, over descriptors whose calls may transfer less, fail or be interrupted; load after save is the identity. Empty files with `mmap`, read errors and longer old files with stdio: refuted. |
| C49 | File system with directory history and unsynced data (`Af/Model`); every state of the trace of system calls is a crash point, and what survives is any choice the model allows; invariant over the trace. |
| C50 | The same traces, with every call failing or not; at the end the target and the directory are as before. A change of the current directory: refuted. |
| C51 | The name of the temporary file as text (`Af/Path`): its directory part is that of the target. Long names: refuted. |
| C52 | Open descriptors and temporary names counted over histories of calls. A second `open()`, failing `fsync`/`fchmod`, `commit()` without a file: refuted. |
| C53 | `Hash/Model`: buckets with an arbitrary hash function and arbitrary growth; refinement to a partial function (Spec/Map.lean), by induction over the calls. |
| C54 | The same with Strings of the memory machine as keys and their cached hash (C04). Stale hashes after writes through references: refuted. |
| C55 | `Tcl/Cast`: the conversions on integers of each width, with the wrapping of C++ conversions; exact or rejected for all values. Unsigned values above the signed maximum, and `uint64_t`: refuted. |
| C56 | `Tcl/Script`: the dispatcher for commands of any signature; called with the wrong number of arguments it runs nothing. `Tcl/Order.lean` models `indices.h` and argument packs made in any order the compiler likes; C56 and C91 hold for every such order. |
| C57 | `Tcl/Registry`: histories of creating, deleting, renaming and calling, by any number of interpreters, against one table (Spec/Registry.lean), by an invariant over the history. |
| C61 | The decision on names as texts; what is evaluated is the file Tcl opens, up to the first NUL. |
| C62 | The text of the script that a callback builds, and Tcl's splitting of it into words (Spec/TclWords.lean); round trip for parameters without special characters, otherwise refuted. |
| C63 | `Tcl/Links`: traces on variables, hooks and released data; histories of links, reads and writes against variables that are one with the C ones (Spec/Links.lean), by an invariant. |
| C58 | Interleavings of any number of threads, any schedule. Copying, reading, destroying is safe while nobody modifies shared storage; copy-on-write refuted. |
| C59 | Machine with released-buffer ghost, and the byte loop. Growth and assignment release unwiped buffers. |
| C60 | Value; stream state bits. |
| C64 | Machine; counting of elements moved, from every reachable state. |
| C65 | Machine; the compound functions refine the value-level ones on objects that may share storage with anything, leave every other object alone, destroy their temporaries, and on `bad_alloc` leave others alone. |
| C66 | Machine; a `Law` that counts allocation requests plus the refinement theorem. `c_str()` is declared noexcept and allocates (refuted). |
| C67 | Interpreter as a state machine; exact condition for `eval` to return; refuted for interpreters without `set`, and for scripts over 2^32 bytes. |
| C68 | Tcl values as texts and lists; the list syntax is a parameter with `parse (format l) = l`. Writing a linked array is undefined (null interpreter). |
| C69 | An output stream with field width, state bits and a device of limited room; String objects on the memory model. Refuted for field widths and, in debug builds, for temporaries that share storage. |
| C70 | The Array operators as programs on the memory model for any element type; the operator and slice theorems of C65 are generic. Refuted: postfix ++/-- do not return the old value. |
| C71 | Programs on the memory model; the case-insensitive searches with their temporaries and every point where they may run out of memory. Refuted: base64 leaks its buffer on bad_alloc and does not check malloc. |
| C72 | Iterators as raw pointers into buffers; loops of the user as recursive programs on the memory model, with fuel only to make them total. Induction over the elements. Refuted in general: cbegin()/end() mixed on shared storage, copies made while an iterator is in use, hash cached while an iterator is in use. |
| C73 | Stream members as programs on the memory model that also thread the position (Prog/Stream.lean); a logic for them on top of the one for Strings; specification as one tape per stream (Spec/Streams.lean); step theorem and induction over histories. Three refutations. |
| C74 | Hash/Fault.lean models each call step by step in a state-and-exception monad (what was done stays when a step throws); the schedule of failing steps is an arbitrary list. Clean x: x returns with its effect or throws with the table unchanged and only if a step failed; composed through the calls, then induction over the history. Steps of std::unordered_map are in libstdc++'s order. What a failed insert(Key&&, ...) does to its key: C88. |
| C75 | Nest/: two memories, that of all String objects and that of the arrays, whose cells hold handles of strings; every constructor, assignment and destructor of an element runs the modelled code of String (Nest/Model.lean). Refinement: the array memory corresponds cell by cell to an array memory over values (RelE), each function on handles matches the function of Rca/Model.lean on values (Match lemmas), so that the theorems of C01-C16 on values carry over; strings in cells are hidden from the specification of strings by a frame argument (Cut.lean). The statement is a game: for every n, whatever in-contract calls are made in the next n moves, each is defined, has the specified effect and everything can be observed (Plays). Fills move the overwritten strings to a set of lost strings. |
| C76 | `Nest/Text.lean` models `split`, `join`, `>>`, the searches, comparisons and `hash` on the two memories of C75, with temporaries destroyed at the end of their scope or by an exception. `Nest/Logic.lean` is a program logic over the states C75's programs reach. `Nest/TextSpec.lean` extends C75's specification with these functions; `Nest/Acts.lean` proves that every program follows it. |
| C77 | A bound `Op.demand` on what each call may ask for, computed from the values (Spec/Need.lean). `Modest` (Rca/Demand.lean): every refused request was within a bound, and every buffer is within it or as long as before; compositional, proved for each operation, with ownership facts for the insertion loop. Calls that ask for nothing obey every law of elementary steps with an allocator that refuses everything. |
| C78 | Small-step model of any number of objects (Af/Many.lean): each user is before one system call; other programs may do anything elsewhere. Invariant over all interleavings (Af/ManyInv.lean): temporary names, files and descriptors of open objects are pairwise distinct and under no target. Alone, the steps of a call are the function `commit`/`abort` of the sequential model. |
| C79 | Small-step model of one object and its mutable members (Conc/Same.lean): a step is one access to the members or the buffer. Invariant over all interleavings (Conc/SameInv.lean): members, except the cached hash, and buffers in use stay, counts are the numbers of objects. Data races are pairs of conflicting next accesses. |
| C80 | Rca/Stay.lean repeats the case analysis of step_refines for what pointers observe: every in-contract call leaves each object it does not disturb in the same place of the same buffer with the same cells, whether it returns or throws (step_stays). Props/C80.lean lifts this to histories and derives statements about pointers, iterators, loops over old iterators and C strings. |
| C81 | Rca/InPlace.lean is a small program logic for calls on an object that alone owns a buffer (Held): each call either is undefined or returns, without allocation, with the object in the same buffer at an allowed position. Props/C81.lean defines the calls within the room in terms of lengths (Op.InRoom, Op.InBuffer), histories (Confined) and lifts the logic to them; other calls are covered by step_stays of C80. |
| C82 | Nest/Expiring.lean models the overloads on values and on arrays of strings and shows that overload and destructor together are shift()/pop() and destructor if the buffer is not shared; C75 (arrays of strings) and C01 (values) give the effect. |
| C83 | Tcl/Interps.lean: the state of C63 per interpreter with the shared hook table; Spec/Interps.lean: independent variables (interpreter, name). An invariant (per interpreter: variables, traces and trace_ptr_data as linked; per name: the hook of its links) is kept by every operation. Spec/SharedHooks.lean says what the hooks actually do; Props/C83Hooks.lean proves it, and the values, for all histories. |
| C84 | Af/Save.lean composes the Stream file functions (C48) with the crashing file system (C49); arbitrary contents in between stand for the writes of writeFile. Af/Kept.lean: an order on states (files the target ever denoted keep their data) that every call respects, for readers with an open file. Spec/Saves.lean: what the file should hold. |
| C85 | Prog/Input.lean puts the two functions and loops on them on the memory machine, with the istream of Ios/Model.lean as state that survives exceptions. The logic is that of C65 with the stream added; the loops refine those on byte lists, whose meaning is C60. |
| C86 | Tcl/Callback.lean adds callbacks to the registry of C57; the invariant of C57 is extended by the interpreter of each running command. Spec/Events.lean says what each operation does in terms of interpreters and words. |
| C87 | Prog/Load.lean puts loadFile and writeFile on the memory machine, with the things borrowed from the system (descriptor, mapping, FILE) as state. The streams' calls are those of C73. Proofs step through the functions with the program logic; the reading loop by induction over the chunks; histories by induction over the loads. |
| C88 | Prog/Table.lean puts std::unordered_map on the memory machine: buckets of pairs of String handles; keys are hashed, compared, copied and destroyed by the machine's functions, nodes and bucket arrays are granted or refused by an arbitrary oracle. Spec/Tables.lean: a table is a partial function from texts to the two Strings of an entry. TabOk reuses the bucket lemmas of C53 with handles as keys, compared by what they hold; a frame lemma carries it through changes of other Strings. One theorem per call, then induction over the length of the program (Behaves). |
| C89 | Rca/Counter.lean is the machine with a 32-bit counter that wraps: the functions that count, directly or not, once more with the same text. Rca/CounterAgree.lean: both machines do the same from states with counters in 1..2^31-2, function by function (AgreeAt). Refutations by induction on the number of copies. |
| C90 | Conc/Wipe.lean: a step is one access to the static counter. Non-interference by a relation between two runs that differ in contents only; progress by a measure; serial executions by an invariant that compares a half-done wipe with the loop of C59. |
| C91 | Tcl/Faults.lean: a monad of code that may return, throw or be undefined, with a count of allocations and an oracle saying which succeed. Containment compositionally; replies by evaluating the command. |
| C92 | The linked-variable part of Tcl/Faults.lean; equality with C63's functions by evaluation; the refutations from every state that meets their hypotheses. |
| C93 | Conc/Table.lean: a step is one access to a remembered hash or one comparison; the table is the one of C53 with the chain of libstdc++'s unordered_map. Invariant: each thread is in its bucket and has found no entry so far; remembered hashes are 0 or right. The refutations give schedules from every start that meets their hypotheses. |
| C94 | Tcl/Objs.lean: a heap of values with counts and elements; Tcl_DecrRefCount with the release of elements; the interpreter's result, variables and words of running commands hold values. Invariant: a value's count is the number of its holders, only values the library has just made have none, and some order puts every value behind its elements (so held means reachable). |
| C95 | Leads: which file a reader of an entry reaches, through which entries, in a version of the directory. Invariant along histories: files that existed are unchanged, every version of the directory has the entries on the way as before, and the name as before or as a new saved file with a logged content. |
| C96 | Conc/Interps.lean: threads that make calls; a step is one access to one of the two static tables. Invariant for the quiet calls; for the refutations an explicit schedule from any state. |
| C97 | Cstr/Own.lean: variables, a heap of blocks, an allocator that may refuse any request; the functions of Cstr/Model.lean. Simulation of a specification on texts, with ownership of blocks as invariant. |
| C98 | Spec/Hooks.lean: a hook is a program whose calls depend on the results so far; a variable is busy while its hook runs. Tcl/Reenter.lean: the traces of Tcl/Links.lean with a stack of running traces. Simulation for every depth, by induction on the depth and the program; the invariant is that of C63 and the value of busy variables. Termination: the busy variables are distinct. |
| C99 | Elems/Model.lean: buffers whose cells hold an element or not; each element operation asks an oracle whether it throws; what is left of operands is a parameter of the class. Spec/Elems.lean: arrays as lists; what a call that returns, or throws, may leave. Invariant (Elems/Inv.lean): all cells of a buffer in use hold elements, counts agree, buffers out are those in use plus one per throw; Hoare-style triples with a postcondition for returning and one for throwing. |
| C100 | Deep/Model.lean: the array code with the element class as a parameter (a memory and six operations); `arrayOf` makes the array itself such a class, `tower` repeats this. Deep/Spec.lean: an environment of values per depth; a call on an element is a call of the depth below on a fresh name. Proof: Deep/Elem.lean states what a class must satisfy (`Laws`); Sim/Cells/Store/Arrays/Calls simulate the arrays by arrays of values for any class with these laws; Deep/Tower.lean proves that arrays satisfy the laws again, by induction on depth; Deep/Play.lean shows every call by induction on the call, with the objects in cells hidden from the program. |
| C101 | Deep/Look.lean: the loops of equals, std::find, rfind and hash with == and hash of the elements as parameters; `eqAt`, `hashAt` by recursion on depth. Proof: Deep/Looks.lean, for any element class whose == decides equality of values and whose hash is a function of the value the arrays have the same two properties (`EqLaw`, `HashLaw`); induction on depth; Deep/Play.lean adds the calls to the histories, and `look`, a call on an element of a const array. |
| C102 | Deep/Script.lean: the conversions as programs on the memories of all depths. Deep/ScriptSpec.lean: `made`, `valueOf` and `Lives`, behaviour according to the specification for ever. Proof: Deep/Scripts.lean, a program logic over any set of states closed under calls (`Acts`, `Ends`), induction on the list and on the depth. |
| C103 | Deep/Table.lean: HashTable and libstdc++'s unordered_map on the memories of all depths. Deep/TableSpec.lean: objects by depth and handle, tables as partial functions, `Serves`. Proof: a program logic for calls on one depth in a program with many (Deep/Tables.lean), representation of one table (Deep/TableLogic.lean), frame for calls on objects (Deep/Elsewhere.lean). |
| C104 | Four more calls in Deep/Spec.lean; Rca/ElemRef.lean models write and replace with a reference into a buffer. Deep/Own.lean: the cell the reference names keeps its object through the call on the real arrays (`Kept`, `PointsTo`), so the call is in step with the one on arrays of values, where C16 applies. |
| C105 | Deep/Command.lean models real_call and dispatch as programs on the objects of C100, with temporaries, moved parameters and unwinding; a function is a tree of calls. Deep/CommandSpec.lean says what holds when the function begins and what it must leave. Deep/Commands.lean: an invariant over the objects made so far, for each order. |
| C106 | Deep/Algo.lean: an algorithm is a tree of moves, copies, temporaries and comparisons, executed on the cells behind the iterators, forward or reverse. Deep/Spec.lean says what it does to a list. Deep/Algos.lean: execution keeps the elements distinct and alive and does what the list says; the values in the buffer are replaced as by a sequence of element assignments. |
| C107 | Prog/Plain.lean: the code is a tree of loads and stores relative to its first iterator. Spec/Plain.lean says what it does to a list. Props/C107.lean: after begin() and end() the object owns its storage, a further getOwnCopy would change nothing, so each store is an element assignment, and by induction the whole is a sequence of them. |
| C108 | Props/C108.lean: Unfit says that all other streams are as they should be (Streams of C73) and that the stream is alive and has some position. Moving and failing lead there; clear, assignment, seek and destruction lead from there back to Streams. |
| C109 | Prog/TableList.lean: the array of pairs, the insertions, the clean-up. Spec/TableList.lean: firstOf, MadeOf. Props/C109.lean: the loop keeps MadeOf for the pairs done; the copies of the pairs are apart from all entries, so destroying them changes no entry. |
| C110 | Deep/TableList.lean: the array of pairs, the insertions, the clean-up. Deep/TableListSpec.lean: firstWith, MadeOf. Props/C110.lean: as C109, with objects named by depth and handle. |
| C111 | Rca/Debug.lean, Nest/Debug.lean: the functions with assertions, a failed one ending the program. Nest/Refs*.lean: each piece of split adds one to the counter, through reallocations of the array. Props/C111*.lean: equality with the functions without assertions; executions of threads that fail them. |
| C112 | Rca/Queue.lean: where insert, shift and pop leave the elements within the buffer. Props/C112.lean: the bound by induction over the calls, the cost by a potential (the free cells in front), the refutation by a round that ends in the state it began with. Props/C112Cost.lean: the bound for buffers of any size. Props/C112Memory.lean: whole programs, each buffer charged to one owner. |
| C113 | B64/Overlap.lean: both loops again, over one memory, each byte read when its expression is evaluated. By induction over the blocks: what is behind the place read from is as it was. |
| C114 | Stm/Moving.lean: loadFile and writeFile again, over a file whose contents depend on the moment; the moments are arguments; mmap as mmap(2) specifies it (zeros up to the end of the last page, SIGBUS behind). By induction over the bytes copied and over the read calls. Spec/Moving.lean: what was at a place of the file at some moment. |
| C115 | Stm/Saving.lean: the list of contents the file goes through, for any order of the stores and any sizes of the writes. By induction over these. The last one is what the model of C48 leaves. Stm/SavingMany.lean: several programs, interleaved step by step. |
| C116 | Stm/Full.lean: pages of the disk are taken at the first store to them. There is room exactly if the text is no longer than the free pages: by induction over the stores, and counting different pages (pigeonhole). Loading: the bytes before the first unreadable page. |

## 4. Assumptions about what the code calls

* `new`/`allocate`: succeeds or throws `bad_alloc` as an arbitrary oracle says; requests of 2^63 elements or
  more fail (`Cfg.Physical`, no machine has them), so sums of two lengths do not wrap.  In the value-level
  models memory suffices, except that requests >= 2^63 throw; `malloc` in `base64.cpp` succeeds (the code does
  not check it).
* Reference counts are unbounded integers in every machine but `Rca32` (C89), which has the 32-bit `int` of the
  code and shows that nothing differs while fewer than 2^31 - 1 objects share one buffer.
* `slack`: ghost number in the configuration, 1 for `String` and 0 otherwise: `String::reserve` asks for one
  element more.
* Element operations (copy, move, compare, hash) do not throw and have no side effects; a moved-from element
  holds an arbitrary function of its old value.  For `Array<String>` this is not assumed but proved (C75, C76).
* C library (`Libc.Ok`): `memcmp`, `memmem`, `strlen` etc. by their documented results, only signs of
  comparisons; `isspace`/`toupper` as in the C locale on `unsigned char` values.  The code passes plain `char`,
  which is undefined for bytes >= 128 where `char` is signed; glibc accepts it and so does the model.
* `-1 << 2` in `base64.cpp` is taken as two's complement.
* `vsnprintf` formatting is an arbitrary text; truncation and return value as documented.
* Stream: capacity of the underlying String is an arbitrary number not below the length.
* Mapped files (C114): zeros behind the end of the file up to the end of its last page, SIGBUS behind it, and where the disk is full or cannot be read (C116); each byte is seen as the file
  is at the moment of the access. `fread` does not read again once a read got nothing.
* File system: `rename` replaces atomically; after a crash any version of the directory since the last sync
  and arbitrary contents of unsynced files; directories are resolved by an
  arbitrary tree (`..` and symbolic links to directories); the name itself is no symbolic link (but C95) and the process does not change
  its directory meanwhile (but Props/C50Chdir.lean).
* `std::unordered_map`: buckets, arbitrary growth policy, unspecified order.
* Tcl: `Tcl_GetLongFromObj` on integers beyond 64 bits is arbitrary; traces and commands as in the manual pages;
  quoting and substitution of double-quoted words as in `Tcl(n)`.
* istream: as in the C++ standard, C locale, a buffer that takes back the last byte.
* Threads: atomics are sequentially consistent (the default order, which the code uses); the copy loop of
  copy-on-write reads one element per step; objects without storage take no part; allocation succeeds.
* Compound functions: temporaries are elided where the language permits; in `Prog` the pieces of
  `split` are a list (the machine has one element type per instantiation), in `Nest/Text.lean` (C76) an `Array<String>`.

## 5. Not modelled

`vsnprintf` formatting, `std::ostream` formatting state beyond what C69 needs, iostream buffers, the Tcl
interpreter beyond the API used, `ScriptInterp`'s abstract class, iterator arithmetic beyond what the
operations use, `HashTable::operator=(initializer_list)`, `Array(const_pointer)` and `Array += Array&&` (these
do not compile when instantiated), and the build system.  The project's own tests are run on the
model, see section 7.

## 6. What the proofs found

Each is proved as a `_refuted_` theorem on a reachable state unless marked (r): found by reading.

1. Public `reserve()` on a shared buffer corrupts the other sharers (C01, C12).
2. `String::reserve` writes a NUL at `buf[capacity - 1]`, inside the contents of exact-size Strings (C12).
3. `c_str()` on exact-size Strings reads out of bounds (C03, C17).
4. `front()`, `back()`, `read()` give writable references without copy-on-write or hash reset (C04, C19, C54).
5. Moved-from objects keep a stale length and hash outside test builds (C14).
6. `insert(0, x)` with `x` longer than the receiver replaces the contents (C06).
7. Arguments inside the receiver's own storage dangle when it grows; `a.insert(k, a)` is undefined (C06, C16).
8. `replace(length(), item)` writes one past the end (C07).
9. `slice` with negative `len` underflows; `start + len` overflows; casts to `int` (C08).
10. `--`, `pop_back`, `pop`, `shift` on empty receivers underflow; `Array += negative` un-shifts (C10).
11. Copy-on-write drops the shared buffer before allocating: `bad_alloc` empties the receiver (C13), threads
    race to use-after-free, leaks, lost isolation and torn values (C58).
12. `find(x, pos)` is relative to `pos`; the fallback without `memmem` is wrong (C21, C28, C29); `split` then loses text.
13. `rifind` ignores its lower bound (C23).
14. `compare` truncates length differences to `int` (C24, C25); with a C string it over-reads (C26).
15. `split`, `sub`, `subst` with empty text do not terminate; limit 0; order dependence (C28, C30, C31).
16. `join` of empty elements throws `bad_alloc` (C35); `printf` of 4096 bytes or more is wrong (C36).
17. base64 decoding over-reads (C39); high charset characters index before the table (C40).
18. `strlcat` reads `dst[siz]` (C42); `str_redup` into itself reads released memory (C43).
19. `Stream::seek` clamps to the capacity, so later calls throw or read junk (C44, C46); `getline(max)` returns
    `max + 1` bytes (C45); loading an empty file with mmap fails, loading
    a pipe works in the stdio build only, because the size 2^64 - 1 it finds wraps to 0 (C48).
20. AtomicFile: second `open()` leaks; failing `fsync`/`fchmod` leaks the descriptor; `commit()` when not open
    removes a foreign temporary file; after chdir() between open() and commit() a relative name is lost, with its temporary file; a name whose template has 4096 characters never opens and longer ones are undefined (C49-C52).
21. `HashTable::insert` does not overwrite; `operator[]` inserts a default (C53: the spec says so).
22. Tcl: `uint64_t` arguments are always 0; unsigned results through signed; long usage texts are undefined;
    the registry is shared by all interpreters; qualified or renamed commands dereference null; re-creating or
    deleting a running command; script names with NUL evaluate another file; callback parameters are not
    escaped; linked variables linked twice; hooks of linked array elements are never called (C55-C57, C61-C63, C83).
23. istream `>>` and `getline` set the fail bit at the end, so loops drop the last token or line (C60).
24. `String::reserve(npos)`/`resize(npos)` wrap (C09, C12).
25. Growth, assignment and move assignment release buffers unwiped (C59).
26. Slice assignment with negative start throws; its `len` counts source characters (C65).
27. (r) `resize(len, value)` for class types runs `uninitialized_fill` over constructed elements.
28. (r) `HashTable::operator=(initializer_list)`, `Array(const_pointer)`, `Array += Array&&` do not compile.
29. `c_str()` (and unary `*`) is declared `noexcept` but allocates when the byte behind the window is not NUL: out of memory ends the program (C66).
30. `eval` recurses without end if `set errorInfo` fails; its length argument is truncated to `int` (C67).
31. Writing to a linked `Array<String>` dereferences a null interpreter pointer; texts of 2^31 - 1 bytes or more become null objects (C68).
32. `os << setw(n) << s` pads the first character only, and an empty String leaves the width for the next output (C69).
33. `os << s.substring(...)` (or any temporary that shares storage) fails the assertion `!isShared()` in debug builds (C69).
34. `a++` and `a--` on Arrays return a one-element Array, not the old value, and underflow on empty Arrays (C70).
35. `base64Encode`/`base64Decode` leak their `malloc` buffer if constructing the result throws, and do not check `malloc` (C71).
36. A loop from `cbegin()` to `end()` on a shared object runs off the old buffer, since `end()` detaches (C72).
37. A copy made, or a hash taken, after `begin()` is invalidated by assignments through the iterator (C72).
38. `Stream::reserve` on a stream made of a slice of a String changes that String (C73).
39. A `puts` that fails on shared storage empties the stream but keeps its position; the next `puts` throws `out_of_range` (C73).
40. `read(n, delim)` that runs out of memory for the delimiter has already advanced: the bytes are lost (C73).
41. HashTable::insert is `map[key] = value`: if the value type's assignment throws, the key stays in the table with a default value, and inserting again returns false (c74_refuted_insert). HashTable::operator=(const HashTable&) is not all-or-nothing: a failure leaves the destination empty (c74_refuted_copy). getValue() and operator[] const are noexcept though copying the value may throw (c74_refuted_getValue).
42. resize(len, value) and ReferenceCountedArray(n, value) call std::uninitialized_fill on cells that already hold constructed elements (ArrayRef::reserve value-initialises all of them): the old elements are never destroyed. With Array<String>: push_back(s); pop_back(); resize(1, s); leaks the storage of s (c75_leak).
43. `commit()` on an object that is not open unlinks the stale temporary name, which another `AtomicFile` may own by then; that one's `commit()` can then move a third one's unfinished file to the target and return true (`c78_refuted_commit_closed`). `AtomicFile` objects can be copied (implicit copy constructor); destroying the copy removes the temporary file and closes the descriptor of the original (`c78_refuted_copy`, `c78_refuted_copy_other`).
44. `c_str()` is const but rewrites `Ref`, `offset`, `sublen` and `my_hash` of an object that is a piece of a larger buffer. Two threads calling it at once both give up a reference: the count is then too small and another String's storage is deleted under it (`c79_refuted_c_str`); a reader meanwhile sees an empty string or dereferences null (`c79_refuted_length`, `c79_refuted_null`), and a concurrent `hash()` caches a wrong hash for good (`c79_refuted_hash`). Concurrent first calls of `hash()` are a data race on `my_hash` (`c79_refuted_hash_race`).
45. `c_str()` is const and still invalidates pointers that `data()` returned earlier when the storage is shared (`c80_refuted_c_str`); so does a mere `begin()` (`c80_refuted_begin`).
46. `a.reserve(10); a.append(b)` with `a` empty discards the reserved buffer and shares the storage of `b`, so the next append allocates although it fits in the 10 (`c81_refuted_append`).
47. `Array<String> b(a); String t(std::move(a).shift());` moves the element out of the buffer that `b` shares (only an assert guards it): `b[0]` keeps its length but has lost its storage, and reading it is undefined (`c82_refuted_shared`). `a.pop()` likewise.
48. `link_var_hooks` is static and keyed by name: a hook given for `x` of one interpreter is called, with the wrong variables, for `x` of another (`c83_refuted_other_hook`); `unlinkVar("x")` of another interpreter (`c83_refuted_other_unlink`) or destroying any interpreter (`c83_refuted_destroy`) silently ends the hook.
49. The hook is looked up under the spelling the script used: `set ::x 1` (or a variable tied by `upvar`) changes the variable without calling it (`c83_refuted_spelling`).
50. After `unset x` by a script, `linkVar("x", other)` without a hook calls the old hook with pointers to the other variable (`c83_refuted_unset`).
51. An empty stream can be saved but not loaded by an `mmap` build (`c84_refuted_empty`).
52. `>>` and `getline` lose a character when memory runs out (`c85_refuted_lost`).
53. A script callback outlives its interpreter, and may belong to the wrong one (`c86_refuted_gone`, `c86_refuted_wrong_interp`).
54. `loadFile(name)` leaks its descriptor when `bad_alloc` is thrown while loading; `loadFile(fd)` leaks the mapping (or the `FILE` and its descriptor) and leaves `loading` set (`c87_refuted_leak`, `c87_refuted_witness`).
55. `HashTable::insert(Key&&, ...)` and `operator[](Key&&)` lose the key if the bucket array cannot grow: `bad_alloc`, nothing inserted, and the argument has been moved from (`c88_refuted_lost_key`).
56. The counter is an `int`: from `2^31` sharers on `isShared()` answers false and writes go to all copies; one more and destroying any copy frees the shared storage (`c89_refuted_write`, `c89_refuted_destroy`).
57. `String::cleanse_ctr` is a plain static: every two threads that destroy Strings, even if they share nothing, race on it (`c90_refuted_race`). The static maps of ScriptInterpTCL (hooks of linked variables) have no lock either; interpreters in different threads are not modelled.
58. A command allocates outside its `try` (its name) and inside its last handler (the message): out of memory throws through the C interpreter (`c91_refuted_name`, `c91_refuted_handler`).
59. Traces have no `try`: a hook that throws throws through the C interpreter (`c92_refuted_hook`).
60. `tcl_traceSet` moves the old value out before it makes the new one: out of memory loses it (`c92_refuted_lost`).
61. `linkVar` of a buffer that runs out of memory for its table entries leaves traces that refer to the deleted data: the next read is a use after free (`c92_refuted_dangling`); of anything else, it throws and has linked the variable without the hook (`c92_refuted_half`).
62. `hash() const` writes the key: threads that look up the same key object in a table nobody changes race; so do threads that look up other keys when an entry's key has the hash 0, which is never remembered (`c93_refuted_key`, `c93_refuted_zero`).
63. Results, error texts, array elements of 2^31 - 1 bytes or more are handed to Tcl as null pointers (`c94_refuted_long`, see also C68).
64. AtomicFile replaces a symbolic link instead of writing the file it leads to (`c95_refuted_through`).
65. The tables of commands and hooks are shared by all interpreters without a lock: destroying an interpreter, or registering a command, races with scripts of other threads (`c96_refuted_race`), and after a destruction their next command call follows a null pointer (`c96_refuted_destroy`).
66. `strdup` and `strldup` look like they return a null pointer without memory, but `calloc` there ends the process with status 5 (`c97_refuted_null`).
67. A hook that runs a script which corrects its own variable (say, to a permitted range) has no effect: Tcl does not run the traces of a variable while one runs, so the C variable keeps the uncorrected value (`c98_refuted_own`).
68. `resize(len, value)` of an array of a class whose copying throws leaves cells in which no element lives, whose destructors run later; the constructor of `n` copies has undefined behaviour at once (`c99_refuted_fill`).
69. `ArrayRef::reserve` never releases the new buffer if `T()`, copying it, or moving an element throws (`c99_refuted_leak`).
70. `insert` whose element cannot be copied leaves the others copied aside: the last is lost and one is there twice (`c99_refuted_insert`).
71. Writing to shared elements gives up the old ones before the new are made: if anything throws the array is empty or partly `T()` (`c99_refuted_cow`).
72. `HashTable::insert(Key&&, ...)` loses keys that are arrays too: the same as C88 for keys that are arrays of any depth (`c103_refuted_lost_key`).
73. `a.push_back(a[0])` on an `Array` of any depth that is full is undefined, and `a.insert(0, a[1])` with room inserts `a[0]` (`c104_refuted_append`, `c104_refuted_insert`).
74. `s.write(0, s.back())` for a `String` made from an initializer list is undefined: getting room for the NUL reallocates before the reference is read (`c16_refuted_write`).
75. Stream(Stream&&) keeps the position of the stream it moves from (Stream.h 58): using that stream again without clear() or assignment is undefined, throws out_of_range, or writes behind uninitialised bytes (c108_refuted_moved, c108_refuted_empty).
76. In a build with assertions, copy-on-write aborts if another thread gives up its copy between the check and the assertion; `split` aborts if another thread makes or destroys a copy of the string meanwhile, although both only use their own objects (C111).
77. An Array used as a queue in a full buffer (for instance built from a list) takes time proportional to its length for every shift() and push_back(): reserve() then moves the elements to the front of the same buffer instead of growing it, and the next round finds it full again (C112).
78. In an `mmap` build `loadFile` is killed by SIGBUS if another program shortens the file between `lseek` and the end of the copy, and so is `writeFile` between `ftruncate` and the end of its `memcpy` (`c114_refuted_killed`, `c114_refuted_saving`); if the cut is within the last page, `loadFile` returns 0 with zeros that never were in the file (`c114_refuted_zeros`). In the `stdio` build it reads on for as long as others append, though it asked for the length first (`c114_refuted_endless`).
79. `writeFile(name)` first truncates: a program killed meanwhile has lost the old file and not saved the new one, whatever the contents (`c115_refuted_neither`); readers can find an empty file, in an `mmap` build also zeros of the full length (`c115_refuted_zeros`).
80. In an `mmap` build `writeFile` to a full disk does not return an error but is killed by SIGBUS, exactly if the text is longer than the room: `ftruncate` succeeds, and `memcpy` writes to holes (`c116_refuted_save`). `loadFile` of a file with an unreadable page is killed too (`c116_refuted_load`); the `stdio` build returns 0 with the beginning of the file (`c116_refuted_short`).

## 7. Testing the theorems

Each line of `seeded/LOG.jsonl` is one wrong program: an edit of a model definition in a scratch copy, rebuilt.
`failed` lists the declarations that no longer check; `tightened` the theorems that were added or strengthened
because the edit survived.

`Verif/Tests` checks the model itself, in the other direction: the test functions in `/repo/src/tests` are written as
programs of the model, call by call, and every assertion the authors wrote must hold in it. These are tests on
literals, not proofs of any property; they are there because a theorem about a model that disagrees with the code
would be worth nothing. Loops over 255 bytes, 500 repetitions or 100 lengths are shortened, and each function says
so.

| Test file | Module | Left out |
|---|---|---|
| `StringTest.cpp` | `Tests/StringTest.lean` | `printfTest` (`vsnprintf`), random data, assertions about `std::string` |
| `ArrayTest.cpp` | `Tests/ArrayTest.lean` | the hash table in `hashTest`, static assertions, two assertions of `indexTest` that read behind an object |
| `StreamTest.cpp` | `Tests/StreamTest.lean` | `/etc/services` (a short text instead) |
| `HashTableTest.cpp` | `Tests/HashTableTest.lean` | assertions that Strings moved into a table are empty |
| `AtomicFileTest.cpp` | `Tests/AtomicFileTest.lean` | `/etc/services` (a short text instead) |
| `ScriptInterpTCLTest.cpp` | `Tests/ScriptInterpTCLTest.lean` | `double`, Tcl's parsing of scripts and writing of lists, the hook on a 50 byte buffer set to a short text (undefined behaviour: reads behind the text) |
