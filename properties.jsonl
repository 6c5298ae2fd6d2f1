{"id": "C01", "title": "Value semantics: copies are isolated from each other", "statement": "Copies of a String/Array, substrings and subarrays share storage internally, but after any history of constructions, copies, moves, assignments, slices, mutations and destructions, an operation applied through one object never changes the elements, length or hash observed through any other object.", "quantifier": "all element types, all finite histories of API calls over any number of objects (element access, insert/replace/append/resize/slice/assign/move/swap/destroy), all contents of uninitialised memory, all allocation outcomes", "why_tests_cant": "The sharing pattern (who shares which buffer with which window) is unbounded; a test samples a handful of alias graphs.", "anchors": ["src/ReferenceCountedArray.h: ReferenceCountedArray::AboutToModify, COW, doDetach, operator=, slice", "src/Array.h: Array", "src/String.h: String"]}
{"id": "C02", "title": "Reference count is exact; storage is freed once and only when unreachable", "statement": "rcount() of an object that owns storage equals the number of live objects sharing that storage, isShared() is true exactly when another live object shares it, the storage is released exactly when the last of them is destroyed or reassigned (never earlier, never twice), and no storage stays allocated without an owner.", "quantifier": "all finite histories of API calls over any number of objects", "why_tests_cant": "Leaks, double frees and early frees depend on the whole history of sharing, not on one call.", "anchors": ["src/ReferenceCountedArray.h: incRef, decRef, CheckDeallocRef, doDetach, Detach, rcount, isShared"]}
{"id": "C03", "title": "In-contract calls never touch memory outside the object's storage", "statement": "A program that respects the documented preconditions (index < length for element access, non-empty for pop/shift, no use of moved-from or destroyed objects, arguments that do not alias the receiver's own storage) never reads or writes outside an allocated buffer, through a null buffer, or after a buffer was released.", "quantifier": "all finite histories of in-contract API calls, all sizes and offsets, all uninitialised memory contents, all allocation outcomes", "why_tests_cant": "Off-by-one accesses show only for particular offset/capacity combinations and often do not crash.", "anchors": ["src/ReferenceCountedArray.h: ArrayRef::reserve, Buf, insert, replace, COW", "src/String.h: String::reserve"]}
{"id": "C04", "title": "hash() is a function of the contents only", "statement": "Whatever happened to the object before, hash() returns DJB's hash of its current elements; the cached value is never stale, so equal contents always give equal hashes.", "quantifier": "all finite histories of API calls interleaved with hash() calls, all element hashers", "why_tests_cant": "A stale cache needs one specific mutator between two hash() calls; the number of interleavings is unbounded.", "anchors": ["src/ReferenceCountedArray.h: hash, my_hash, setLength, addLength, subLength, AboutToModify"]}
{"id": "C05", "title": "Append adds exactly the given elements at the end", "statement": "append/push_back/operator+=/operator<< (element, array with optional count n, C string) leaves the old elements in place and adds the first n (or all) elements of the argument after them; the argument is unchanged, also when the receiver is appended to itself.", "quantifier": "all receivers, arguments, counts n, sharing states, offsets, capacities", "why_tests_cant": "Depends on capacity, offset and sharing state of both operands.", "anchors": ["src/ReferenceCountedArray.h: append, insert(size_t, const ReferenceCountedArray&, size_t)", "src/String.cpp: String::insert"]}
{"id": "C06", "title": "insert(pos, x) splices x in at pos and keeps everything else", "statement": "For pos <= length(), insert(pos, x[, n]) yields the first pos old elements, then the first n elements of x, then the remaining old elements.", "quantifier": "all pos <= length, all x, all n, all sharing/offset/capacity states; element, array, rvalue-array, C-string and iterator-range overloads", "why_tests_cant": "Includes the pos == 0 fast path, which is taken only for some length relations.", "anchors": ["src/ReferenceCountedArray.h: insert (all overloads)", "src/String.cpp: String::insert(size_t, const char*, size_t)"]}
{"id": "C07", "title": "replace(pos, x) overwrites from pos, extending if needed", "statement": "For pos <= length(), replace(pos, x, n) yields an object whose elements from pos on are the first n elements of x, keeps the elements before pos and after pos+n, and grows the length only if x runs past the old end; a Slice assignment s(pos, n) = x is the same operation; replace(pos, item) changes exactly element pos.", "quantifier": "all pos <= length, all x, all n (including npos), all sharing/offset/capacity states", "why_tests_cant": "Boundary pos == length and the pos == 0 fast path need particular length relations.", "anchors": ["src/ReferenceCountedArray.h: replace (all overloads), Slice::operator=, write, Cref::operator=", "src/String.cpp: String::replace"]}
{"id": "C08", "title": "substring/slice/subarray select exactly the documented window", "statement": "slice(start, len) selects elements start..start+len clipped to the array; negative start counts from the end (clipped at the beginning); len == -1 means 'to the end'; another negative len stops that many elements before the end; a start past the end gives an empty result. The result is never longer than the original.", "quantifier": "all contents, all start and len values of the parameter type, including negative ones", "why_tests_cant": "Two signed parameters with mixed int/ssize_t/size_t arithmetic; tests fix a few values.", "anchors": ["src/ReferenceCountedArray.h: slice", "src/String.h: substring, operator()", "src/Array.h: subarray"]}
{"id": "C09", "title": "resize gives the requested length and keeps the common prefix", "statement": "resize(n) and resize(n, v) make length() == n and keep the first min(n, old length) elements; resize(n, v) sets every added element to v; other objects sharing the storage keep their value.", "quantifier": "all n, v, sharing/offset/capacity states", "why_tests_cant": "Growing in place, growing with reallocation and copy-on-write are distinct paths selected by hidden state.", "anchors": ["src/ReferenceCountedArray.h: resize, AboutToModify"]}
{"id": "C10", "title": "Dropping elements from either end", "statement": "clear(), String/Array += n (drop n from the front), -= n (drop n from the back), ++, --, pop_back() remove exactly that many elements (all, if n exceeds the length) and change no other object.", "quantifier": "all contents, all n, all sharing/offset states", "why_tests_cant": "Repeated front-drops move a hidden offset; correctness must hold after every history.", "anchors": ["src/String.h: operator+=(size_t), operator-=, operator++, operator--", "src/Array.h: operator+=(int), operator-=(int)", "src/ReferenceCountedArray.h: pop_back, clear"]}
{"id": "C11", "title": "out_of_range is thrown exactly for invalid positions and changes nothing", "statement": "at(pos) throws std::out_of_range iff pos >= length(); insert/replace/find(.., pos) throw iff pos > length() (n == 0 calls never throw); after a throw the object and every other object are unchanged.", "quantifier": "all objects, positions and overloads", "why_tests_cant": "A missing check corrupts memory silently instead of failing a test.", "anchors": ["src/ReferenceCountedArray.h: validateIndex, at, insert, replace, find"]}
{"id": "C12", "title": "reserve() changes only the capacity", "statement": "reserve(n) guarantees capacity() >= n and changes neither the elements of this object nor those of any other object; capacity never decreases except when the storage is given up.", "quantifier": "all objects, all n, all sharing/offset/capacity states", "why_tests_cant": "Whether the call reallocates or shifts in place depends on hidden state shared with other objects.", "anchors": ["src/ReferenceCountedArray.h: reserve, ArrayRef::reserve", "src/String.h: String::reserve"]}
{"id": "C13", "title": "A failed allocation does not corrupt data", "statement": "If memory allocation fails inside a mutating call, the exception propagates, the receiver keeps its old value and no other object changes.", "quantifier": "all mutating calls, all points at which an allocation can fail", "why_tests_cant": "Tests cannot make every allocation fail.", "anchors": ["src/ReferenceCountedArray.h: COW, reserve, AboutToModify"]}
{"id": "C14", "title": "Move transfers the value and leaves a safe source", "statement": "Move construction/assignment gives the target the source's old value without changing any third object or reference count, and the source may afterwards be destroyed, assigned to or cleared; it reads as empty.", "quantifier": "all histories in which objects are moved from and then reused", "why_tests_cant": "The moved-from state differs between test builds (CPPUNIT_VERSION) and production builds, so tests exercise other code than users run.", "anchors": ["src/ReferenceCountedArray.h: ReferenceCountedArray(ReferenceCountedArray&&), operator=(ReferenceCountedArray&&)"]}
{"id": "C15", "title": "Copy, assignment and slicing share storage; self-assignment is a no-op", "statement": "Copy construction and copy assignment make the two objects share one storage (no element is copied, no allocation is made) with equal contents; assigning an object to itself leaves it unchanged.", "quantifier": "all objects and histories", "why_tests_cant": "Self-assignment is only safe because of a particular order of increments and releases.", "anchors": ["src/ReferenceCountedArray.h: ReferenceCountedArray(const ReferenceCountedArray&), operator=(const ReferenceCountedArray&)"]}
{"id": "C16", "title": "Passing an element of the container to its own insert/append is safe", "statement": "a.insert(pos, a[i]), a.append(a[i]), s.insert(pos, s.c_str()) and similar calls whose argument lives inside the receiver insert the value the argument had before the call.", "quantifier": "all arrays, positions, element indices, capacities", "why_tests_cant": "Fails only when the call happens to reallocate or shift.", "anchors": ["src/ReferenceCountedArray.h: insert(size_t, const_reference)", "src/String.cpp: String::insert"]}
{"id": "C17", "title": "c_str() is NUL-terminated and equals the contents", "statement": "c_str() returns a pointer at which the bytes of the string are followed by a NUL, without reading outside the storage, without changing the value of this or any other string.", "quantifier": "all strings reachable by any history (slices, shared, shrunk, constructed by any constructor)", "why_tests_cant": "The terminator is often present by accident; the failing cases need exact-capacity or shared buffers.", "anchors": ["src/String.h: c_str, String(const char*, size_t), reserve"]}
{"id": "C18", "title": "Array behaves as a double-ended queue", "statement": "Any sequence of push_back, push_front, pop, shift on an Array gives the same results as on an ideal sequence: pop returns and removes the last element, shift the first.", "quantifier": "all finite operation sequences, all element types, with and without sharing", "why_tests_cant": "shift moves a hidden offset and pushes must reclaim it; only long mixed sequences exercise it.", "anchors": ["src/Array.h: shift, pop, push_front, operator<<, operator>>"]}
{"id": "C19", "title": "Writable iterators detach first", "statement": "begin()/mdata()/Cref::mget() give access to storage that no other existing object shares, so writes through them are invisible to all objects that existed at that time; front()/back()/read() on a non-const object give the same guarantee.", "quantifier": "all sharing states; all later copies", "why_tests_cant": "Needs aliasing between a raw pointer and later/earlier copies.", "anchors": ["src/ReferenceCountedArray.h: begin, end, mdata, Cref::mget, read, front, back"]}
{"id": "C20", "title": "find/rfind of an element return the first/last occurrence", "statement": "find(x) is the smallest index holding x, rfind(x) the largest, npos iff x does not occur; find(x, pos) searches from pos and reports the distance from pos.", "quantifier": "all arrays, elements, start positions", "why_tests_cant": "rfind relies on unsigned wrap-around at 0 and on the empty array.", "anchors": ["src/ReferenceCountedArray.h: _find, find, rfind"]}
{"id": "C21", "title": "find(str) returns the leftmost occurrence", "statement": "find(str) returns the smallest i such that str occurs at i, npos iff it does not occur; find(str, pos) reports the distance from pos of the leftmost occurrence at or after pos; the result does not depend on whether the platform provides memmem.", "quantifier": "all strings, needles, positions, both build configurations", "why_tests_cant": "Two implementations are selected at configure time; tests run only one.", "anchors": ["src/String.cpp: String::_find", "src/String.h: String::find"]}
{"id": "C22", "title": "rfind(str, lpos) returns the rightmost occurrence not before lpos", "statement": "rfind(str, lpos) returns the largest i >= lpos at which the non-empty str occurs, npos iff none.", "quantifier": "all strings, needles, lpos", "why_tests_cant": "The loop counts down through zero with wrap-around.", "anchors": ["src/String.cpp: String::rfind"]}
{"id": "C23", "title": "Case-insensitive search", "statement": "ifind/rifind return the first/last position at which the needle occurs up to toupper; rifind honours its lpos bound.", "quantifier": "all strings, needles, lpos", "why_tests_cant": "Must hold for every byte value and position.", "anchors": ["src/String.cpp: String::ifind, String::rifind"]}
{"id": "C24", "title": "String ordering is the lexicographic total order on unsigned bytes", "statement": "compare(a,b) is negative/zero/positive exactly as a is lexicographically less/equal/greater than b; <, <=, >, >= are the corresponding relations and form a total order; == holds iff the contents are identical.", "quantifier": "all pairs and triples of strings (including bytes >= 0x80, embedded NUL, prefixes, and very long strings)", "why_tests_cant": "Order laws quantify over triples; overflow in the length difference needs multi-gigabyte strings.", "anchors": ["src/String.cpp: String::compare(const String&)", "src/String.h: operator==, operator<, operator<=, operator>, operator>="]}
{"id": "C25", "title": "compare(str, n) orders the first n bytes", "statement": "compare(str, n) has the sign of the lexicographic comparison of the first n bytes of both strings; n == 0 gives 0.", "quantifier": "all pairs of strings, all n", "why_tests_cant": "Corner cases around n versus both lengths.", "anchors": ["src/String.cpp: String::compare(const String&, size_t)"]}
{"id": "C26", "title": "Comparing with a C string", "statement": "compare(const char*) and compare(const char*, n) have the sign strcmp/strncmp would give on the contents, never reading past the C string's terminator; s == cstr iff contents equal the C string.", "quantifier": "all strings (including embedded NUL) and C strings, all n", "why_tests_cant": "Over-reads do not fail tests.", "anchors": ["src/String.cpp: String::compare(const char*), String::compare(const char*, size_t)"]}
{"id": "C27", "title": "Array equality", "statement": "a == b iff same length and pairwise equal elements; equals(b, n) compares lengths and the first n elements.", "quantifier": "all arrays over any element type with a reflexive ==", "why_tests_cant": "Pointer-equality shortcut must agree with the element-wise answer.", "anchors": ["src/Array.h: equals, operator=="]}
{"id": "C28", "title": "split cuts at every delimiter and join puts it back", "statement": "For a non-empty delimiter other than a single space, split terminates, no piece contains the delimiter, and joining the pieces with the delimiter restores the string up to one trailing delimiter; split with limit k returns at most k pieces (k >= 1) whose join restores the string.", "quantifier": "all strings, delimiters, limits", "why_tests_cant": "Round-trip law over all strings; termination for all delimiters.", "anchors": ["src/String.cpp: String::split", "src/Array.h: join"]}
{"id": "C29", "title": "split on a space returns the words", "statement": "split(' ') returns exactly the maximal runs of non-space characters in order, with no empty pieces.", "quantifier": "all strings", "why_tests_cant": "All arrangements of leading, trailing and repeated spaces.", "anchors": ["src/String.cpp: String::split"]}
{"id": "C30", "title": "sub replaces the leftmost non-overlapping occurrences", "statement": "sub(search, replacement, limit) terminates and returns the string with the first limit (all, if limit is -1) leftmost non-overlapping occurrences of the search string replaced; replaced text is not searched again; the receiver is unchanged.", "quantifier": "all strings, search strings, replacements, limits", "why_tests_cant": "Termination and non-rescanning over all inputs.", "anchors": ["src/String.cpp: String::sub"]}
{"id": "C31", "title": "subst applies every mapping once", "statement": "subst(map) replaces every occurrence of every key by its value, independently of the map's iteration order, whenever keys do not overlap each other or the replacement texts.", "quantifier": "all strings and maps, all iteration orders", "why_tests_cant": "Iteration order of the hash map is unspecified.", "anchors": ["src/String.cpp: String::subst"]}
{"id": "C32", "title": "newsplit removes the first token", "statement": "newsplit(str, delim) returns the text before the first delimiter (all of it if none) and leaves in str what follows the delimiter (for a space: the whole run of delimiters); repeated calls until empty yield the same tokens as cutting the string at delimiters, and consume it completely.", "quantifier": "all strings and delimiters, all numbers of calls", "why_tests_cant": "Iterated use over arbitrary input.", "anchors": ["src/String.cpp: newsplit"]}
{"id": "C33", "title": "trim and chomp", "statement": "trim() removes exactly the leading and trailing whitespace; chomp() removes exactly one trailing line ending (\\n, \\r or \\r\\n); both are value functions of the contents, trim is idempotent, and other copies are unaffected.", "quantifier": "all strings", "why_tests_cant": "All byte combinations at both ends.", "anchors": ["src/String.cpp: String::trim, String::chomp"]}
{"id": "C34", "title": "operator* repeats the string", "statement": "s * k is k copies of s for every k >= 0.", "quantifier": "all strings, all int k", "why_tests_cant": "Negative and overflowing counts are not tested.", "anchors": ["src/String.cpp: String::operator*(int)"]}
{"id": "C35", "title": "join concatenates with delimiters", "statement": "join(delim) returns the elements in order separated by delim, each wrapped in double quotes if quoted; the size precomputation never affects the result.", "quantifier": "all arrays of strings, all delimiters", "why_tests_cant": "The precomputed size wraps for some inputs.", "anchors": ["src/Array.h: join"]}
{"id": "C36", "title": "printf returns the whole formatted text", "statement": "String::printf returns exactly the text vsnprintf would produce for any output length, without reading outside its buffer.", "quantifier": "all output lengths", "why_tests_cant": "Tests use short outputs.", "anchors": ["src/String.cpp: String::printf"]}
{"id": "C37", "title": "base64Encode implements RFC 4648", "statement": "base64Encode maps each 3-byte group to four 6-bit digits (big-endian) with = padding; output length is 4*ceil(n/3); every output byte is a charset character or padding; the destination allocated by b64enc is never overrun.", "quantifier": "all byte strings, all charsets", "why_tests_cant": "All byte values and lengths.", "anchors": ["src/base64.cpp: b64enc_buf, b64enc, base64Encode"]}
{"id": "C38", "title": "base64 round trip", "statement": "base64Decode(base64Encode(s)) == s, so encoding is injective.", "quantifier": "all byte strings (any length, embedded NUL)", "why_tests_cant": "Universal round-trip law.", "anchors": ["src/base64.cpp: b64enc_buf, b64dec_buf", "src/base64.h: b64_charset, b64_indexes"]}
{"id": "C39", "title": "base64 decoding is memory safe", "statement": "base64Decode on any input neither reads past the input (and its terminator) nor writes past the buffer it allocates.", "quantifier": "all input strings, valid or not", "why_tests_cant": "Over-reads do not fail tests.", "anchors": ["src/base64.cpp: b64dec_buf, b64dec"]}
{"id": "C40", "title": "base64 with a custom charset", "statement": "Encoding and decoding with the same custom 64-character set round-trips for every set of 64 distinct characters that excludes the padding character.", "quantifier": "all charsets, all byte strings", "why_tests_cant": "64-character tables cannot be enumerated.", "anchors": ["src/base64.cpp: b64dec (charset_index construction)"]}
{"id": "C41", "title": "strlcpy never overruns and always terminates", "statement": "strlcpy(dst, src, siz) writes only dst[0..siz), leaves dst holding the first siz-1 bytes of src NUL-terminated (if siz > 0) and returns strlen(src).", "quantifier": "all src, siz, previous dst contents", "why_tests_cant": "Truncation boundaries for all sizes.", "anchors": ["src/Cstrings.cpp: strlcpy"]}
{"id": "C42", "title": "strlcat never overruns and always terminates", "statement": "strlcat(dst, src, siz) touches only dst[0..siz), appends as much of src as fits, NUL-terminates if dst was terminated within siz, and returns min(siz, strlen(dst)) + strlen(src).", "quantifier": "all dst, src, siz", "why_tests_cant": "Unterminated destinations and exact fits.", "anchors": ["src/Cstrings.cpp: strlcat"]}
{"id": "C43", "title": "strdup/strldup/str_redup copy correctly", "statement": "strdup returns a fresh NUL-terminated copy; strldup copies at most maxlen bytes; str_redup replaces the pointed-to string with a copy of the new one (null releases it).", "quantifier": "all strings and lengths", "why_tests_cant": "All lengths and aliasing situations.", "anchors": ["src/Cstrings.cpp: strdup, strldup, str_redup"]}
{"id": "C44", "title": "Stream writes overwrite at the position and reads return what was written", "statement": "puts(x) at position p makes bytes p..p+|x| equal to x, keeps all others and advances tell() by |x|; read(n) returns the next min(n, remaining) bytes and advances by that many; reading back after a write returns the written bytes.", "quantifier": "all stream contents, positions, strings and operation sequences", "why_tests_cant": "Arbitrary interleavings of puts/read/seek.", "anchors": ["src/Stream.h: puts, tell, operator<<", "src/Stream.cpp: Stream::read"]}
{"id": "C45", "title": "getline yields the lines", "statement": "Repeated getline() until the end returns the lines in order, each ending in its newline (except possibly the last), and their concatenation is the remaining content; getline(max) returns at most max bytes.", "quantifier": "all contents, all max", "why_tests_cant": "All line structures.", "anchors": ["src/Stream.h: getline", "src/Stream.cpp: Stream::read"]}
{"id": "C46", "title": "seek keeps the stream usable", "statement": "seek(off, whence) moves to the requested position clamped to the stream's content, returns it, and any later puts/read/getline is safe.", "quantifier": "all offsets, whence values, later operations", "why_tests_cant": "Failures need a later read or write after an extreme seek.", "anchors": ["src/Stream.cpp: Stream::seek, Stream::read"]}
{"id": "C47", "title": "truncate cuts at the position; clear empties", "statement": "truncate() keeps exactly the first tell() bytes; clear() empties and rewinds; peek() returns the rest without moving.", "quantifier": "all contents and positions", "why_tests_cant": "All positions including past the end.", "anchors": ["src/Stream.h: truncate, clear, peek"]}
{"id": "C48", "title": "File round trip", "statement": "writeFile then loadFile gives back the same content with position 0, for any content and any previous file content; both configurations (mmap and stdio) agree; errors are reported by a nonzero return.", "quantifier": "all contents (including empty), all previous file contents, both build configurations, all system-call failures", "why_tests_cant": "Only one configuration and non-empty files are tested.", "anchors": ["src/Stream.cpp: Stream::loadFile, Stream::writeFile"]}
{"id": "C49", "title": "AtomicFile: crash atomicity", "statement": "At every instant, and after a crash at any point, the target name refers either to the complete old file or to the complete new content; never to partial data.", "quantifier": "all crash points, all sequences of writes to the descriptor, all failures of system calls, all previous states of the file system", "why_tests_cant": "Crash points cannot be enumerated by tests.", "anchors": ["src/AtomicFile.cpp: open, commit, abort"]}
{"id": "C50", "title": "AtomicFile: abort, destruction and failed commit leave the target untouched and no temporary file", "statement": "After abort(), destruction while open, or a commit() that returns false, the target is exactly as before and the temporary file is gone; after commit() returns true the target has the written content and requested mode.", "quantifier": "all file-system states and system-call failures", "why_tests_cant": "Failure paths are untested.", "anchors": ["src/AtomicFile.cpp: abort, commit", "src/AtomicFile.h: ~AtomicFile"]}
{"id": "C51", "title": "AtomicFile: the temporary file is in the target's directory", "statement": "The temporary name used by open() denotes a file in the same directory as the target, for relative, absolute and slash-less names, so the final rename never crosses directories.", "quantifier": "all file names", "why_tests_cant": "All path shapes.", "anchors": ["src/AtomicFile.cpp: AtomicFile::open"]}
{"id": "C52", "title": "AtomicFile: no descriptor or temporary file is leaked", "statement": "Every descriptor and temporary file created by an AtomicFile is closed/removed or renamed by the time the object is destroyed, whatever calls were made and whichever system calls failed.", "quantifier": "all call sequences on one object, all failures", "why_tests_cant": "Needs injected failures and leak detection.", "anchors": ["src/AtomicFile.cpp: open, commit, abort"]}
{"id": "C53", "title": "HashTable is a finite map", "statement": "Any sequence of insert, operator[], remove, clear, find, contains, getValue, size behaves like an ideal map: insert does not overwrite and reports whether it inserted, reading a missing key yields a default value without inserting (const) or inserts a default (non-const []), size counts distinct keys.", "quantifier": "all finite operation sequences, all key/value types", "why_tests_cant": "Unbounded histories.", "anchors": ["src/HashTable.h: HashTable"]}
{"id": "C54", "title": "Strings work as hash keys", "statement": "Equal strings hash equally whatever their storage, so a HashTable keyed by String finds an entry with any equal key, regardless of which buffer/slice it came from.", "quantifier": "all strings, all histories of the key objects", "why_tests_cant": "Hash caching and sharing state vary.", "anchors": ["src/String.h: std::hash<String>", "src/ReferenceCountedArray.h: hash", "src/HashTable.h: find"]}
{"id": "C55", "title": "Tcl integer conversions are exact or rejected", "statement": "A Tcl integer converted to an intN_t/uintN_t is the same number if it fits and 0 otherwise; a C value converted to Tcl and back is unchanged.", "quantifier": "all integer types and values", "why_tests_cant": "2^64 values per type.", "anchors": ["src/ScriptInterpTCL.cpp: tcl_to_c_cast<*>::from", "src/ScriptInterpTCL.h: c_to_tcl_cast<*>::from"]}
{"id": "C56", "title": "Script commands check their argument count", "statement": "A registered C++ callback runs exactly when the number of script arguments lies between min_params and the number of parameters; missing arguments get default values, given ones are passed in order; otherwise the script gets an error and the callback does not run; exceptions become script errors.", "quantifier": "all commands, arities, argument lists", "why_tests_cant": "All arities and argument counts.", "anchors": ["src/ScriptInterpTCL.cpp: _createCommand_callback", "src/ScriptInterpTCLCallbacks.h: real_call"]}
{"id": "C57", "title": "Command registry follows create/delete history", "statement": "After any history of createCommand/deleteCommand over any number of interpreters, a command is callable in an interpreter iff it was created there and not deleted since, and a call runs the most recently registered callback; invoking a command by any name the interpreter resolves to it is safe.", "quantifier": "all histories, several interpreters", "why_tests_cant": "Cross-interpreter histories.", "anchors": ["src/ScriptInterpTCL.h: _createCommand, deleteCommand, ScriptCmdTCL, ~ScriptInterpTCL", "src/ScriptInterpTCL.cpp: CmdHandlerData"]}
{"id": "C58", "title": "Reference counting is thread-safe for distinct objects", "statement": "Threads that use distinct String/Array objects sharing one storage (copying, destroying, modifying their own object) never access freed storage, never free it twice and never leak it, under every interleaving.", "quantifier": "all interleavings of any number of threads", "why_tests_cant": "Schedules cannot be enumerated by tests.", "anchors": ["src/ReferenceCountedArray.h: ArrayRef::refs, CheckDeallocRef, COW, isShared"]}
{"id": "C59", "title": "Strings are wiped before their memory is released", "statement": "When the last String referring to a buffer goes away, the bytes handed back to the allocator carry no information about the string's contents.", "quantifier": "all contents, all ways of releasing a buffer", "why_tests_cant": "Freed memory is not observable in tests.", "anchors": ["src/String.h: cleanse, ~String", "src/ReferenceCountedArray.h: CheckDeallocRef, FreeBuf"]}
{"id": "C60", "title": "Reading Strings from istreams", "statement": "is >> s skips leading whitespace and reads one maximal whitespace-free token leaving the following whitespace unread; getline(is, s) reads up to and consumes a newline; looping on getline yields every line.", "quantifier": "all input byte sequences", "why_tests_cant": "All inputs.", "anchors": ["src/String.cpp: operator>>(std::istream&, String&), getline(std::istream&, String&)"]}
{"id": "C61", "title": "loadScript only accepts .tcl files", "statement": "loadScript evaluates a file iff its name ends in \".tcl\"; for any other name (including names shorter than four bytes) it reports SCRIPT_LOAD_WRONG_INTERP without evaluating anything.", "quantifier": "all file names", "why_tests_cant": "Relies on unsigned wrap-around for short names.", "anchors": ["src/ScriptInterpTCL.cpp: loadScript"]}
{"id": "C62", "title": "Script callbacks receive their parameters intact", "statement": "ScriptCallbacker::call(params) invokes the script command with exactly the given parameter strings as its arguments.", "quantifier": "all command names and parameter lists", "why_tests_cant": "All byte strings as parameters.", "anchors": ["src/ScriptInterpTCL.h: ScriptCallbackerTCL::call", "src/Array.h: join"]}
{"id": "C63", "title": "Linked variables mirror the C variable", "statement": "After linkVar, reading the script variable yields the current C value, writing it updates the C variable (or is refused for const), the hook sees old and new value, only the buffer [ptr, ptr+size) is written for sized buffers; after unlinkVar there is no further effect.", "quantifier": "all histories of link/unlink/read/write, all value lengths", "why_tests_cant": "Arbitrary histories.", "anchors": ["src/ScriptInterpTCL.h: linkVar, unlinkVar, tcl_traceSet, tcl_traceSetPtr", "src/ScriptInterpTCL.cpp: setupTraces, TraceGet, TraceSet"]}
{"id": "C64", "title": "Storage growth is geometric", "statement": "Appending n elements one by one copies O(n) elements in total.", "quantifier": "all n", "why_tests_cant": "Asymptotic claim.", "anchors": ["src/ReferenceCountedArray.h: _rca_cow_scaling_factor, ArrayRef::reserve"]}
{"id": "C65", "title": "Compound String functions act on values, whatever storage is shared", "statement": "operator+, operator*, ==, compare, find, chomp, trim, newsplit, sub, subst, split, join, postfix ++/--, assignment to slices and elements have exactly the specified effect on the values of their arguments and result, change no other String even if it shares storage with an argument (or is the same object), leave no temporary behind, and if memory runs out on the way throw bad_alloc with every object as it was (a String being assigned to in place may end up empty).", "quantifier": "all reachable states, all sharing patterns between arguments, all contents, all allocation failures", "why_tests_cant": "The sharing patterns and the points at which an allocation can fail are unbounded.", "anchors": ["src/String.cpp: operator*, chomp, trim, newsplit, sub, subst, split, compare", "src/String.h: operator+, operator++(int), operator--(int), operator==", "src/Array.h: join", "src/ReferenceCountedArray.h: Slice::operator=, Cref::operator="]}
{"id": "C66", "title": "noexcept functions do not throw", "statement": "Every String/Array function that is declared noexcept (copying, moving, swapping, clearing, slicing, length, element access, hash, find, compare, ==, chomp, trim, ++/--, pop_back, shift, pop, destruction, ...) returns normally in every state and makes no allocation request, so it cannot end the program through std::terminate even when memory is exhausted.", "quantifier": "all reachable states, all arguments within the contract, all allocators including one that refuses everything", "why_tests_cant": "Whether an exception can arise depends on the sharing and capacity history of the objects and on when memory runs out.", "anchors": ["src/ReferenceCountedArray.h: functions marked noexcept", "src/String.h: c_str, operator*, chomp, trim, find, compare, operator++, operator--", "src/Array.h: shift, pop, subarray"]}
{"id": "C67", "title": "Evaluating a script returns its result or the error trace", "statement": "eval(script) evaluates exactly the given script once and returns its result text; if the script fails it returns the error trace of the interpreter. It always returns if evaluating the script does.", "quantifier": "all interpreters and states, all scripts", "why_tests_cant": "Scripts and interpreter states are unbounded, and termination cannot be tested.", "anchors": ["src/ScriptInterpTCL.cpp: eval"]}
{"id": "C68", "title": "Texts, truth values and arrays survive the way through Tcl", "statement": "A String, bool, Array<String> or Array<Array<String>> converted to a Tcl value and back is unchanged, also if the script makes text of it in between; a script's text becomes the Array of the elements of the list it denotes; a linked Array variable can be read and written by scripts.", "quantifier": "all contents and lengths, all Tcl libraries that read back the lists they write", "why_tests_cant": "Contents (NUL bytes, braces, nesting) and lengths are unbounded.", "anchors": ["src/ScriptInterpTCL.cpp: c_to_tcl_cast, tcl_to_c_cast for String, bool, Array<String>, Array<Array<String>>", "src/ScriptInterpTCL.h: tcl_traceGet, tcl_traceSet"]}
{"id": "C69", "title": "Writing a String to an ostream writes its text", "statement": "os << s writes exactly the bytes of s, like os << std::string would, and changes no String; if the device takes only part, a prefix is written and the stream is bad; on a failed stream nothing is written. This also holds for temporaries.", "quantifier": "all contents, all stream states and devices, all reachable configurations of shared storage, both NDEBUG settings", "why_tests_cant": "Contents, stream states and sharing between objects are unbounded.", "anchors": ["src/String.h: operator<<(std::ostream&, const String&), operator<<(std::ostream&, String&&)"]}
{"id": "C70", "title": "Array operators and searches act on values, whatever storage is shared", "statement": "For Arrays of any element type: a++ and a-- remove the first or last element and return the old value, ==, find, rfind answer from the contents, a + b, assignment to slices and elements have exactly the effect on values that C65 states for Strings; no other Array changes even if it shares storage.", "quantifier": "all element types, contents and reachable configurations of shared storage", "why_tests_cant": "Contents and sharing between Arrays are unbounded.", "anchors": ["src/Array.h: operator++(int), operator--(int), operator==, equals, operator+", "src/ReferenceCountedArray.h: find, rfind, Slice, Cref"]}
{"id": "C71", "title": "Copies of a String in other forms have exactly its contents", "statement": "copy(dst,n) overwrites exactly the first min(n,length) bytes of dst; dup() and std::string have the contents, with NUL bytes; chomp() and trim() on a const String and base64Encode/base64Decode return new Strings; rfind, ifind and rifind answer from the contents; none of them changes any String object, whatever storage is shared, and memory taken for the call is given back even if it throws.", "quantifier": "all contents, buffer sizes, positions and reachable configurations of shared storage, and every allocation failure", "why_tests_cant": "Contents, sharing and the point of allocation failure are unbounded.", "anchors": ["src/String.h: dup, operator std::string, chomp() const, trim() const", "src/String.cpp: copy, rfind, ifind, rifind", "src/base64.cpp: base64Encode, base64Decode"]}
{"id": "C72", "title": "Iterating: each element once, in order; assigning loops change only the object they run over", "statement": "A loop from cbegin() to cend(), or crbegin() to crend(), uses every element exactly once, in order or in reverse, and changes nothing. A range-for that assigns every element changes exactly the object it runs over, whatever storage was shared; if there is no memory for an own copy nothing is assigned. insert(const_iterator, item) inserts before that element and returns an iterator to it.", "quantifier": "all contents, positions, functions applied to the elements and reachable configurations of shared storage, and every allocation failure", "why_tests_cant": "Contents, loop lengths and sharing are unbounded.", "anchors": ["src/ReferenceCountedArray.h: begin, cbegin, end, cend, crbegin, crend, insert(const_iterator, item), getOwnCopy"]}
{"id": "C73", "title": "Streams are independent values", "statement": "Every stream of a program behaves like a tape of its own, however streams, their copies, the Strings they were made of and the texts read from them share storage: each call returns what the tape says, advances that stream only and changes no other stream or String. Only puts, reading up to a delimiter and the constructor with a size can fail, with bad_alloc, and then only when memory is refused; a failed read changes no contents.", "quantifier": "all histories of calls on any number of streams and Strings, all contents up to 2^31 - 1 bytes, all reachable configurations of shared storage and every allocation failure", "why_tests_cant": "Histories, the number of streams, sharing and allocation failures are unbounded.", "anchors": ["src/Stream.h: Stream, operator=, swap, puts, getline, truncate, peek, clear, tell, length, operator String", "src/Stream.cpp: reserve, seek, read"]}
{"id": "C74", "title": "A HashTable call that fails leaves the tables as they were", "statement": "Whenever memory runs out or making a key throws inside a HashTable call (construction, insert, [], assignment through [], copying), the call throws and every table has exactly the entries it had before, so that the call can be repeated; calls that return have done what C53 says; and no call throws unless one of its steps did. This holds when the value type is assigned without throwing (String, Array, numbers).", "quantifier": "every key type with lawful == and hash, every value type, every policy for growing, every sequence of calls on any number of tables, and every choice of the steps that throw (allocation of nodes and buckets, making of keys and values, copying and assigning of values) in each call", "why_tests_cant": "which step of which call fails is up to the heap; a test makes a few of them fail, and cannot cover all calls, contents and positions of the failure", "anchors": ["src/HashTable.h: insert, operator[], getValue, operator=, HashTable(std::initializer_list), HashTable(size_t)"]}
{"id": "C75", "title": "Arrays of strings behave as lists of values", "statement": "In a program with any number of Strings and Array<String>s, every call does what it would do if strings were byte sequences and arrays were lists of strings: an element is never changed through another string, another element or another array, a call that runs out of memory has the documented effect, and once all strings and arrays are destroyed no string object and no storage is left.", "quantifier": "every sequence of calls on strings, on arrays of strings (including inserting, appending, replacing and removing elements by copy or by move, slices, fills and lists) and on single elements through the array's iterator; every growth rule, every pattern of failing allocations in either memory", "why_tests_cant": "elements share their storage with strings and with each other, and buffers of elements are shared between arrays: what a test sees depends on the history of sharing, growth and failures, of which there are infinitely many", "anchors": ["src/ReferenceCountedArray.h: ArrayRef::reserve, ReferenceCountedArray::Reserve, AboutToModify, getOwnCopy, resize, insert, append, replace, operator=, slice", "src/Array.h: shift, pop", "src/String.h: String"]}
{"id": "C76", "title": "Splitting, joining, searching, comparing and hashing work on live strings and arrays", "statement": "In any program over Strings and Array<String>s, split makes a new array of exactly the pieces the value-level rules give (words for a space, cuts at the leftmost delimiter otherwise, with or without a limit) and changes nothing else; join makes a new string that is the elements with the delimiter between them; array >> item stores the last element and removes it; find, rfind, equals, ==, != and hash report on the values and change nothing; when memory runs out every one of them throws bad_alloc and leaves all strings and arrays as they were, with nothing leaked.", "quantifier": "all histories of calls, all values, limits, delimiters and both memories running out at any point", "why_tests_cant": "The pieces share storage with the string they are cut from and the array grows while it is filled; which buffers are shared, and where an allocation fails, depends on the whole history.", "anchors": ["src/String.cpp: String::split", "src/Array.h: join, equals, operator==, operator!=, operator>>", "src/ReferenceCountedArray.h: find, rfind, hash, _find"]}
{"id": "C77", "title": "No call asks for more memory than it needs", "statement": "Every call asks the allocator for at most one element more than it has to find room for, or, if it takes its buffer with the growth factor, for what the growth factor makes of a buffer too small for the request. So bad_alloc is thrown only if a request of that size was refused; a call with that much memory available never throws it; and capacities after a call are bounded the same way. Copying, moving, slicing, looking and dropping ask for nothing.", "quantifier": "all operations, arguments, contents, reachable configurations of shared storage, growth factors and allocators", "why_tests_cant": "Sizes, sharing configurations and allocation failures are unbounded; a program that asks for far too much still passes every test on a large machine.", "anchors": ["src/ReferenceCountedArray.h: ArrayRef::reserve, Reserve, COW, AboutToModify, insert, replace, resize, constructors", "src/String.h: reserve, constructors"]}
{"id": "C78", "title": "AtomicFile: many writers at once", "statement": "Any number of AtomicFile objects, in any number of threads and processes, for the same or for different targets, whose system calls interleave with each other's and with those of other programs in any way: at every moment, and after a crash at any moment, each target is the file from before or one whose complete content was given to a commit() for that target; it holds exactly what the last commit() that returned true for it was given; and if no system call fails, every commit() and abort() of an open object returns true.", "quantifier": "all numbers of objects, target names, contents, interleavings at system call granularity, failures of system calls, and activity of other programs that leaves the targets and temporary files alone", "why_tests_cant": "Interleavings, failures and crash points of several writers are unbounded in number; a test sees one schedule.", "anchors": ["src/AtomicFile.cpp: open, abort, commit", "src/AtomicFile.h: AtomicFile, ~AtomicFile, is_open"]}
{"id": "C79", "title": "Const calls on one String by several threads", "statement": "Any number of threads may use one String at once through const calls (length, at, hash, c_str, copying it) without a lock, while other Strings sharing its storage are read, copied and destroyed: every call gives what it gives alone, in boundedly many steps, no call touches memory it must not, the values of all objects stay, and there is no data race.", "quantifier": "all numbers of threads, all interleavings of single memory accesses, all values, all sets of other objects sharing the storage", "why_tests_cant": "A test sees one schedule; a data race or a double release needs a particular interleaving of single accesses.", "anchors": ["src/ReferenceCountedArray.h: hash, length, at, copy constructor, doDetach, COW, AboutToModify, CheckDeallocRef", "src/String.h: c_str"]}
{"id": "C80", "title": "Pointers, references and iterators into an object stay valid", "statement": "A pointer, reference or iterator into an Array or String (data(), c_str(), &a[i], cbegin()) stays valid and shows the same elements until the object itself is modified, moved from or destroyed, whatever is done to other objects, including those that share its storage; a copy keeps the pointers of the original alive after the original is gone, and move and swap hand them over.", "quantifier": "all histories of calls that leave the object alone, returning or throwing, all sharing relations, all values and positions", "why_tests_cant": "Copy on write makes objects share buffers; whether a buffer survives depends on the whole history of all sharers, and a dangling pointer often still reads the old bytes.", "anchors": ["src/ReferenceCountedArray.h: begin, cbegin, data, Buf, getOwnCopy, doDetach, copy constructor, move constructor, swap", "src/String.h: c_str, data"]}
{"id": "C81", "title": "What reserve() promises: growth within it needs no memory and moves nothing", "statement": "After reserve(n) has returned, calls that keep the object within n elements while its storage is not shared do not ask for memory, so cannot throw bad_alloc, and leave pointers, references and iterators to the elements valid; calls that drop elements at the front or refill the object stay in the same buffer, so a queue of at most n elements never allocates.", "quantifier": "all n, all histories of calls within the room mixed with arbitrary calls on other objects (including making and dropping copies), all values", "why_tests_cant": "The guarantee concerns every later history: sharing may begin and end in between, elements drift through the buffer, and allocation failure is not reached by a test that has enough memory.", "anchors": ["src/ReferenceCountedArray.h: reserve, ArrayRef::Reserve, AboutToModify, append, insert, replace, resize, clear", "src/String.h: reserve, c_str, operator=(std::string)", "src/Array.h: shift, pop"]}
{"id": "C82", "title": "Taking an element out of an expiring Array: f().shift(), f().pop()", "statement": "shift() and pop() on an Array that is about to go away (a temporary, or std::move(a)) return the first or last element, and no other Array or String changes; once the array has been destroyed the program is in the same state as after an ordinary shift() or pop() and the destructor.", "quantifier": "all states of the program (any strings and arrays, any sharing), all element values, for plain values and for String elements", "why_tests_cant": "The overloads skip the sharing check; whether another array sees the moved-from element depends on the history that produced the temporary. The assert that would notice is compiled out in release builds.", "anchors": ["src/Array.h: shift() &&, pop() &&", "src/ReferenceCountedArray.h: Buf, back, isShared, ~ReferenceCountedArray"]}
{"id": "C83", "title": "Linked variables with several interpreters", "statement": "With any number of script interpreters, made and destroyed at any time: a link made with linkVar concerns only the interpreter it was made in. Scripts of that interpreter read and set the C variable through it, whatever spelling of the name they use, and its hook, if one was given, is called for every change by a script, and only then; a link ends with unlinkVar, when a script unsets the variable or with the interpreter, and a later link of the same name starts afresh.", "quantifier": "all histories of creating and destroying interpreters, linking, unlinking, reading, setting and unsetting variables (any names and spellings) and of changes by the program", "why_tests_cant": "Hooks are kept in one table for all interpreters, under a name alone; whether a hook is called, and which, depends on what was done with other interpreters and earlier.", "anchors": ["src/ScriptInterpTCL.h: link_var_hooks, trace_ptrs, ~ScriptInterpTCL, linkVar, unlinkVar, tcl_traceSet, tcl_traceSetPtr, tcl_traceGet", "src/ScriptInterpTCL.cpp: setupTraces, TraceGet, TraceSet, TraceSetRO"]}
{"id": "C84", "title": "Saving a Stream through an AtomicFile, and reading it", "statement": "A program that saves streams under one name with AtomicFile (open, stream.writeFile(file.fd()), commit), again and again, any of the saves failing at any point: afterwards the file holds the stream of the last save that reported success, or what it held before. At every moment, and after a crash at any moment, a reader finds the old file or the complete contents of one of the streams, never a part or a mixture, and loadFile gives exactly these; a reader that has opened the file keeps seeing what it opened. Failed saves leave no descriptor and no temporary file behind, and a save in which no call fails reports success.", "quantifier": "all sequences of saves of all streams, in both builds (mmap and stdio), all failures of system calls and of writing, all crash points, all readers (either build) at any state or later", "why_tests_cant": "The guarantee is about every state between any two system calls of two classes working together, every pattern of failures and every point at which the machine may stop or another program look.", "anchors": ["src/AtomicFile.cpp: open, abort, commit", "src/AtomicFile.h: AtomicFile, ~AtomicFile, fd, is_open", "src/Stream.cpp: writeFile, loadFile"]}
{"id": "C85", "title": "Reading Strings from istreams: shared storage, lack of memory", "statement": "Reading a token (>>) or a line (getline) into a String gives the text read, whatever the String held or shared before, and every other String keeps what it shows; a loop that reads into one String and keeps copies collects exactly the lines or tokens. If memory runs out on the way, bad_alloc is thrown, no other String changes, the stream is neither failed nor at its end, and nothing but what the String holds has been taken from the stream.", "quantifier": "all reachable states of all Strings with any sharing, all inputs, streams in any state, all allocation failures at any character", "why_tests_cant": "Aliasing histories, inputs and the point of an allocation failure all range over infinitely many possibilities.", "anchors": ["src/String.cpp: operator>>, getline", "src/String.h: operator=(const char*), operator+=(const char)"]}
{"id": "C86", "title": "Callbacks handed over by scripts run in the interpreter that handed them over", "statement": "A command of the program with a callback parameter may be called by any script with the text of a command. However the program keeps, replaces, forgets and calls such callbacks, also from within commands, and whatever commands and interpreters come and go in between: calling one makes the interpreter of the script that handed it over execute the words of the text followed by exactly the parameters; the result is that command's, or the error trace; no other interpreter changes.", "quantifier": "all histories of commands created, deleted, called (nested) and removed by scripts, interpreters made and destroyed, and callbacks kept, replaced, forgotten and called; all texts and parameters", "why_tests_cant": "Depends on the whole history of registrations and on nested calls.", "anchors": ["src/ScriptInterpTCL.cpp: tcl_to_c_cast<ScriptCallbackerPtr>, ScriptCmdTCL::_createCommand_callback", "src/ScriptInterpTCL.h: ScriptCallbackerTCL::call", "src/ScriptInterp.h: ScriptCallbacker"]}
{"id": "C87", "title": "Loading and saving files gives back what it borrowed, and changes only the stream", "statement": "Whatever the system and the memory allocator answer, and whatever other Strings and streams share the stream's text: loading a file into a stream is never undefined and changes no other object. If it reports success the stream holds the bytes that could be read, stands at 0 and is not loading; if it reports failure it is empty at 0, or as it was if the file could not be opened; if it throws, it throws bad_alloc, a request was refused, and the stream holds the first part of the file. Saving never throws and changes no object. Both close and unmap what they opened, so that any number of loads and saves leaves no descriptor open.", "quantifier": "all files, answers of the system and of the allocator, reachable states of the program, histories of loads", "why_tests_cant": "Failures of memory at every point of every load, with every way of sharing.", "anchors": ["src/Stream.cpp: loadFile, writeFile, reserve", "src/Stream.h: puts, clear, loading"]}
{"id": "C88", "title": "Tables of Strings: keys and values are Strings of their own", "statement": "In any program that uses Strings and HashTable<String, String>s, in any order and with any sharing of text between them: every call within its contract is defined and does to the tables what it does to finite maps from texts to values, whatever the growth policy of the buckets. The Strings in tables are distinct from one another and from all others: a call on a String elsewhere changes no key, and a value changes only through a reference to it. A call on a table changes only what it says: the entry, and Strings passed as rvalues. The argument may be the key or a value in the table itself, as in t.remove(it->first). A call throws only bad_alloc, and only if memory was refused; then insert and operator[] have changed nothing but perhaps a key passed as an rvalue, and assignment has changed nothing or left the destination empty.", "quantifier": "all programs of String and table calls of any length, texts, ways of sharing, bucket policies, schedules of refused memory", "why_tests_cant": "Keys share storage with Strings the program goes on changing; entries survive rehashing and failures at every allocation.", "anchors": ["src/HashTable.h: insert, remove, contains, getValue, operator[], find, clear, swap, operator=", "src/String.h: std::hash<String>, operator==", "src/ReferenceCountedArray.h: copy/move constructor, assignment, destructor, hash"]}
{"id": "C89", "title": "The reference counter does not run over", "statement": "However many copies of an object a program makes: the copies stay independent of each other, and storage is released exactly when its last owner goes.", "quantifier": "all programs of calls on Strings or Arrays of any length, any number of objects sharing one buffer", "why_tests_cant": "The counter is an int: a test would have to make 2^31 copies to see it wrap.", "anchors": ["src/ReferenceCountedArray.h: ArrayRef::refs, incRef, decRef, isShared, CheckDeallocRef"]}
{"id": "C90", "title": "Threads that destroy unrelated Strings do not interfere", "statement": "Threads that use Strings of their own, sharing no object and no storage, may destroy them at the same time: there is no data race, all storage is wiped and released, and what is handed back to the allocator tells nothing about the contents.", "quantifier": "any number of threads, any sequence of destroyed Strings per thread, any contents, every interleaving", "why_tests_cant": "The shared state is hidden in the destructor; races depend on the schedule, and wiping has to hold under each of them.", "anchors": ["src/String.h: String::cleanse, cleanse_ctr, ~String"]}
{"id": "C91", "title": "Exceptions of a command end in the script", "statement": "Whatever a C++ function bound as a Tcl command does, no exception leaves the command into the interpreter: an exception of the function or of the conversion of its arguments becomes the error message of the script command (its text, or a fixed text), with the effects the function had; running out of memory is no exception to this.", "quantifier": "every command (parameters, usage, function with any effects, any exception), all arguments, every state, every pattern of failing allocations", "why_tests_cant": "Where an exception or a failing allocation occurs is a crash point: every position matters, and what the C interpreter does after one cannot be observed reliably.", "anchors": ["src/ScriptInterpTCL.h: ScriptCommandHandlerTCL::_callBody", "src/ScriptInterpTCL.cpp: ScriptCommandHandlerTCL::tcl_to_c_cast"]}
{"id": "C92", "title": "Linked variables: exceptions and failing allocations", "statement": "Setting a linked variable from a script lets no exception of a hook or of a conversion into the interpreter, and leaves the variable with its old or its new value; linking a variable either succeeds or throws and leaves everything as it was.", "quantifier": "every linked variable and buffer, all values, hooks and conversions with any effects and exceptions, every state, every pattern of failing allocations", "why_tests_cant": "Every allocation and every call out is a crash point.", "anchors": ["src/ScriptInterpTCL.h: tcl_traceSet, tcl_traceSetPtr, setupTraces, linkVar"]}
{"id": "C93", "title": "Looking things up in one table by several threads", "statement": "Threads that look up keys in one HashTable at the same time, while nobody changes it, do not disturb each other: there is no data race, no lookup is undefined, each ends, and each finds what the table has under its key.", "quantifier": "every table reached by any calls, every order of the buckets in the library, any number of threads and lookups with any keys (shared or not, with or without a remembered hash), every interleaving of the accesses to remembered hashes", "why_tests_cant": "Schedules; and whether there is a race depends on which keys happen to remember a hash and which have the hash 0.", "anchors": ["src/HashTable.h: contains, getValue, operator[] const, find", "src/ReferenceCountedArray.h: hash, my_hash", "src/String.h: std::hash<String>"]}
{"id": "C94", "title": "Tcl values are neither leaked nor used after their release", "statement": "However scripts and C++ functions exchange values (arguments, results, error texts, arrays, linked variables read and written, results of evaluations): the library uses no Tcl value after its release and modifies none that others hold; a result is the value the function gave; the arguments of a command stay alive and unchanged until it returns, so char* parameters stay valid; and exactly the values scripts can still reach are alive, so nothing is leaked.", "quantifier": "every history of steps of scripts (setting, sharing, unsetting variables, building and extending lists, calling commands in each other) and of the library, all values", "why_tests_cant": "A missing or doubled release shows only as growing memory or a crash much later, and depends on who else holds the value.", "anchors": ["src/ScriptInterpTCL.cpp: TraceGet, TraceSet, c_to_tcl_cast<const Array<String>&>::from, _createCommand_callback, eval, loadScript", "src/ScriptInterpTCL.h: tcl_traceGet, tcl_traceSet, c_to_tcl_cast", "src/ScriptInterpTCLCallbacks.h: ScriptCallbackDispatchTCL::dispatch"]}
{"id": "C95", "title": "AtomicFile on a symbolic link", "statement": "If the name given to open() is a symbolic link (or a chain of them), a reader of the name finds at every instant, and after a crash, the complete content from before or a complete content given to commit(), and never nothing; the file behind the link and the links on the way are never changed; after commit() said true the name is the new file itself.", "quantifier": "all chains of links, all crash points, all call sequences, writes and system-call failures", "why_tests_cant": "No test uses a link, and crash points cannot be enumerated.", "anchors": ["src/AtomicFile.cpp: open, commit, abort", "src/AtomicFile.h: ~AtomicFile"]}
{"id": "C96", "title": "Script interpreters in different threads", "statement": "A program may have one interpreter per thread: once the commands, variables and hooks are registered, scripts of all threads may call commands and read and set linked variables at the same time; there is no data race on what the interpreters have in common, and what runs is what was registered. Registering, removing and destroying are no different.", "quantifier": "all numbers of threads, all sequences of calls, all schedules", "why_tests_cant": "A test runs a few schedules; the property is about all of them.", "anchors": ["src/ScriptInterpTCL.h: CmdHandlerData, link_var_hooks, _createCommand, deleteCommand, unlinkVar, tcl_traceSet, tcl_traceSetPtr, ~ScriptInterpTCL", "src/ScriptInterpTCL.cpp: _createCommand_callback, setupTraces"]}
{"id": "C97", "title": "Programs that keep C strings, and lack of memory", "statement": "In any program that keeps C strings with strdup, strldup, str_redup and free: each variable has the text given to it, no two variables share a block, no block is lost, and once all are freed nothing is left. Without memory, strdup and strldup return a null pointer and the program can go on.", "quantifier": "all programs within the contract, all texts and offsets, all allocators", "why_tests_cant": "Tests call each function once, with enough memory.", "anchors": ["src/Cstrings.cpp: strdup, strldup, str_redup, calloc, realloc"]}
{"id": "C98", "title": "Hooks of linked variables may use the interpreter", "statement": "A hook of a linked variable may itself link and unlink variables, also its own, set C variables, and run scripts that read and set variables, which may call further hooks. Nothing undefined happens at any depth of nesting; every script and every hook finds the values it should; hooks are called once for each change, with the old and the new value; hooks that set only finitely many variables cannot call each other for ever.", "quantifier": "all programs and hooks (whose calls may depend on everything seen so far), all nestings of hooks, all values and names within the contract of C63", "why_tests_cant": "Tests have hooks that only set a flag; what a hook may do while traces of the interpreter are running depends on the nesting.", "anchors": ["src/ScriptInterpTCL.h: linkVar, unlinkVar, tcl_traceSet, tcl_traceSetPtr, link_var_hooks, trace_ptrs", "src/ScriptInterpTCL.cpp: setupTraces, TraceGet, TraceSet", "src/ScriptInterp.h: link_var_hook_t"]}
{"id": "C99", "title": "Arrays of elements that throw", "statement": "Elements of an Array may be of a class whose constructors and assignments throw, and memory may run out. Whatever throws, and when: no call has undefined behaviour, then or later; all other arrays keep their elements, also those that share storage with the one called; that one can still be used, assigned and destroyed; nothing is lost when all arrays are gone; and the array has the elements it had.", "quantifier": "all classes (what moving and failed assignments leave), all sequences of calls, all points at which copying, moving or making an element or a request for memory throws", "why_tests_cant": "A test can make one copy throw at one place; the result depends on which of the element operations in which call throws, after which history of sharing, slicing and growing.", "anchors": ["src/ReferenceCountedArray.h: ArrayRef::reserve, FreeBuf, COW, AboutToModify, doDetach, insert, append, resize, write, initializer_list constructor and assignment, CheckDeallocRef"]}
{"id": "C100", "title": "Arrays nested to any depth", "statement": "A program makes any number of Strings, Array<String>s, Array<Array<String>>s and so on to any depth, and calls them in any order, also through elements of elements of elements. Each call is defined and has the effect it has for lists of values: no change made to an object or inside an element is seen through any other object or element, although all of them share storage; exceptions when memory runs out at any depth leave what they should; nothing is left when all objects are gone. (Without resize(len, value) and the constructor of n copies: see C75.)", "quantifier": "all depths, all sequences of calls on objects of all depths, all paths through nested elements, all allocation failures at any depth", "why_tests_cant": "Sharing at one depth keeps the elements of the depth below shared or not; the combinations grow with depth and history, and tests fix one depth.", "anchors": ["src/Array.h: Array, shift, pop", "src/ReferenceCountedArray.h: ReferenceCountedArray, ArrayRef, getOwnCopy, insert, replace, write", "src/String.h: String"]}
{"id": "C101", "title": "Comparing, searching and hashing nested arrays", "statement": "For arrays of Strings nested to any depth: a == b exactly if both hold the same at every depth; find, find from a position and rfind give the first, the first from there on (counted from it), and the last index of an element that is equal at every depth, or npos; hash() depends only on what the array holds, whatever was called before, whatever hashes the array and the objects inside it remember, also right after a change deep inside; equal arrays have equal hashes. Reading through elements of const arrays to any depth changes nothing, never copies storage and so never fails.", "quantifier": "all depths, all histories of calls before, all contents without moved-from parts, all paths through nested elements", "why_tests_cant": "Every object at every depth may remember a hash or share its storage; whether one of them is stale depends on the history.", "anchors": ["src/Array.h: equals, operator==, std::hash<Array>", "src/ReferenceCountedArray.h: hash, find, rfind, operator[], AboutToModify", "src/String.h: operator==, hash"]}
{"id": "C102", "title": "Values of scripts as live nested arrays", "statement": "Converting a value of a Tcl script to a String, an Array<String>, an Array<Array<String>> or any greater depth makes exactly one new object, which holds the text, or the list of what the elements are converted to (nothing if the value is no list); every other object of the program is unchanged, and from then on the new object behaves like any other, for ever. If memory runs out at any point the call throws bad_alloc and no object is new, changed or leaked. Converting back gives the value the object holds and changes nothing; there and back, also through the text of the value, gives the same contents.", "quantifier": "all depths, all values of scripts, all Tcl libraries, all programs before and after, every allocation that may fail", "why_tests_cant": "The conversion makes and moves temporaries at every depth; a failing allocation can strike between any two of them, and what is shared afterwards shows only in later calls.", "anchors": ["src/ScriptInterpTCL.cpp: tcl_to_c_cast<Array<String>>, tcl_to_c_cast<Array<Array<String>>>, c_to_tcl_cast", "src/ScriptInterpTCL.h: c_to_tcl_cast<const String&>", "src/Array.h: operator<<"]}
{"id": "C103", "title": "Tables with Strings and nested arrays as keys and values", "statement": "A HashTable whose keys and values are Strings, Array<String>, Array<Array<String>> or deeper maps what a key holds, at all depths, to one value object: insert, operator[], remove, contains, find, getValue, size, isEmpty, iteration, clear, copy, move and swap do what a map does, also for keys with equal hashes and whatever hashes are cached, and the keys and values in the table are objects like others, which can be looked at and (values) changed at any depth by any call. Copies of tables share no entry. No call on tables or objects is undefined, calls on tables throw only if memory is refused, and then the tables are as they were (or, for copies, empty).", "quantifier": "all programs of calls on tables and on objects of all depths, all depths of keys and values, all growth policies of libstdc++, every allocation of nodes and buckets that may fail", "why_tests_cant": "Keys are hashed and compared by code that recurses through shared buffers and cached hashes; whether an entry is found depends on the history of each object inside the key.", "anchors": ["src/HashTable.h: insert, contains, remove, getValue, operator[], find, clear, operator=, swap", "src/Array.h: std::hash<Array<T>>", "src/String.h: std::hash<String>"]}
{"id": "C104", "title": "Elements of nested arrays passed by reference", "statement": "Passing an element of an array of any depth as argument to an array of the same type stores the value the element had before the call and changes nothing else: after x.push_back(b[i]), x.insert(pos, b[i]), x.write(j, b[i]) or x.replace(pos, b[i]) the array x holds that value at the given place, b and all other objects at all depths hold what they held, also when x is b, when arrays or elements share storage, and when b is itself an element of a deeper array; if memory is refused x is as it was or empty.", "quantifier": "all depths, all histories of calls on objects of all depths before and after, all arrays, elements and positions, every allocation that may fail", "why_tests_cant": "The argument is a reference into a buffer which the call itself may copy, move, shift or release before it reads the reference; whether it does depends on who shares the buffer and on its capacity, that is on the whole history.", "anchors": ["src/ReferenceCountedArray.h: write, insert, append, push_back, replace, AboutToModify, getOwnCopy", "src/Array.h: push, push_back, operator<<"]}
{"id": "C105", "title": "Commands whose functions take and return Strings and arrays", "statement": "When a script calls a command, the function gets as parameters new objects that hold what the words of the script say (empty ones for words that are missing), for Strings, arrays of Strings, arrays of these and so on; if it returns, the reply is the value of the object it returned; if memory runs out while arguments are made the function is not called and nothing has happened; if it throws, the exception arrives. In every case all objects the call made are gone again, no other object has changed except by the function itself, and the program may go on for ever.", "quantifier": "all programs with Strings and arrays of any depth, all functions that make any calls on them within contract, all numbers and types of parameters, all words, all orders in which arguments are made, all allocation failures", "why_tests_cant": "Arguments are converted, moved twice and destroyed around a function that may itself share storage with them and with everything else; what is left when the third conversion or the function throws depends on sharing and on the history.", "anchors": ["src/ScriptInterpTCLCallbacks.h: ScriptCallbackDispatchTCL::dispatch, ScriptCommandHandlerTCL::real_call", "src/ScriptInterpTCL.cpp: tcl_to_c_cast<String>, tcl_to_c_cast<Array<String>>, tcl_to_c_cast<Array<Array<String>>>, c_to_tcl_cast"]}
{"id": "C106", "title": "Algorithms of the standard library on arrays do to the array what they do to a list", "statement": "algorithm(a.begin(), a.end()), or with rbegin() and rend() or on a part of the elements, for any algorithm made of moves, copies, objects of its own and comparisons of elements (std::sort, std::stable_sort, std::reverse, std::unique, std::iter_swap, \u2026) leaves in the array what it would make of a plain list with these elements (for reverse iterators, in reverse order; what is outside the part stays), returns or throws what it would, and changes nothing else: no array or String that shared storage, no other array, no other element of an array around it. Sorting leaves the same elements in ascending order, equal ones in the order they had; an algorithm that only compares and exchanges loses and doubles nothing, even if it throws. If memory runs out, that happens before the algorithm begins, and the array is unchanged or, if it was shared, empty.", "quantifier": "all programs with Strings and arrays of any depth, all algorithms within their contract, all arrays, shared or not, of any length, both orders of evaluating begin() and end(), all allocation failures", "why_tests_cant": "The algorithm moves elements through temporaries behind the array's back, while buffers, elements and elements of elements may be shared; the second of begin() and end() must not give the array new storage; elements that were moved from are in the array in between.", "anchors": ["src/ReferenceCountedArray.h: begin, end, getOwnCopy, operator= (move)", "src/Array.h: operator==", "src/String.h: operator<, compare"]}
{"id": "C107", "title": "Algorithms of the standard library on Strings and arrays of plain values do what they do to a list", "statement": "work(s.begin(), s.end()), work(s.rbegin(), s.rend()) and work(s.begin() + i, s.begin() + j), for any code that reads and assigns elements between the two iterators, on a String, Array<char> or an array of plain values, leaves in s what it would make of a plain list with these elements (in reverse order for rbegin), returns or throws what it would, and changes no other element and no other object, even one that shared its storage with s. Worked out: code that only reads and exchanges elements loses and doubles none, even if it throws; std::reverse reverses; sorting by any order leaves the same elements in ascending order, equivalent ones in the order they had; std::remove_if moves those that stay to the front and says how many they are; std::transform in place applies the function to each. If memory runs out, that happens before the code begins, and s is unchanged or, if it was shared, empty.", "quantifier": "all programs, all such code within its iterators (what it does next may depend on what it read), all contents of any length, shared or not, both orders of evaluating begin() and end(), all allocation failures", "why_tests_cant": "begin() and end() each may replace the storage of s, so the first iterator could be stale when the second is made, and a String writes a terminator behind the last element while it does so; the code then writes through a bare pointer into storage other objects used a moment ago.", "anchors": ["src/ReferenceCountedArray.h: begin, end, getOwnCopy, AboutToModify", "src/String.h: Reserve"]}
{"id": "C108", "title": "A stream that was moved from, or whose puts failed, can be used again", "statement": "Moving from a stream gives the new stream its contents and position and changes no other stream or String. The stream moved from, and a stream whose puts threw bad_alloc, can then be destroyed, cleared (it is an empty stream at position 0 then), assigned another stream (it then has its contents and position) and, after a failed puts, positioned within the contents it has; after each of these it is a stream like any other. Calls without a contract (length, puts, reading) work at once.", "quantifier": "all programs, all streams at all positions, shared or not, both builds (moved-from objects reset or not), all allocation failures", "why_tests_cant": "The position is copied and kept when the contents are taken away, so every call on such a stream starts from a state no other history leads to; whether clear, assignment or seek gets out of it depends on all of them setting what the others read.", "anchors": ["src/Stream.h: Stream(Stream&&), operator=, clear", "src/Stream.cpp: puts, seek, getline, read"]}
{"id": "C109", "title": "Tables of Strings made of a list", "statement": "HashTable<String, String> t{{k1, v1}, {k2, v2}, ...} has exactly one entry for each text among the keys, with the value of the first pair that has this key; the Strings in it are new and distinct from all others, no other String or table changes, and the copies in the list are gone afterwards. It throws only bad_alloc, only if memory was refused, and then everything is as before and nothing is left. Afterwards the table behaves as C88 says, in all programs of Strings and tables.", "quantifier": "all programs of String calls, table calls and such constructions of any length, lists of any length with any repeated or shared texts, bucket policies, schedules of refused memory", "why_tests_cant": "Each pair is copied twice and destroyed once while the table grows and rehashes; that no count is lost, no entry doubled and nothing kept when memory runs out between two of these steps is a statement about every list and every failing step.", "anchors": ["src/HashTable.h: HashTable(std::initializer_list)", "src/String.h: hash<String>"]}
{"id": "C110", "title": "Tables with Strings and nested arrays as keys and values, made of a list", "statement": "HashTable<K, V> t{{k1, v1}, {k2, v2}, ...}, where K and V are String, Array<String>, Array<Array<String>> or deeper, has exactly one entry for each thing the keys hold, compared at all depths, with the value of the first pair that has this key; the objects in it are new and distinct from all others, no other object or table changes, and the copies in the list are gone afterwards. It throws only bad_alloc, only if memory was refused, and then everything is as before and nothing is left. Afterwards the table behaves as C103 says, in all programs of objects of all depths and tables.", "quantifier": "all depths of keys and values, all programs of calls on objects of all depths, table calls and such constructions of any length, lists of any length with any repeated or shared objects, bucket policies, schedules of refused memory", "why_tests_cant": "Each pair of nested objects is copied twice and destroyed once while the table grows and rehashes; that this shares and frees every buffer at every depth properly, for every depth, list and failing step, cannot be tried out.", "anchors": ["src/HashTable.h: HashTable(std::initializer_list)", "src/String.h: hash<String>", "src/Array.h: hash<Array>"]}
{"id": "C111", "title": "Assertions change nothing", "statement": "A program that keeps the documented contracts computes the same results and leaves the same state in a build with the library's assertions (NDEBUG not defined) as in one without: no assertion fails, in whatever state, with whatever arguments, whether or not memory is refused, and under any schedule of threads. Outside the contracts (taking an element from an empty object) the build with assertions stops where the other goes on with a length of 2^64 - 1.", "quantifier": "all reachable states of objects that share storage, all calls within their contracts, all strings, delimiters, limits and platforms for split, all programs of strings and arrays of strings, all interleavings of any number of threads", "why_tests_cant": "The assertions compare reference counters, lengths and buffers; whether they hold depends on the whole history of copies and slices, on where memory ran out, and on what other threads do in between.", "anchors": ["src/ReferenceCountedArray.h: COW, pop_back", "src/String.h: String(const char*), operator=(std::string), c_str", "src/Array.h: shift, pop", "src/String.cpp: split"]}
{"id": "C112", "title": "Long use does not make memory or time grow", "statement": "However long a program runs: (1) an Array used as a queue by push_back, push_front, shift and pop, with at most m elements at any time, never has a capacity of more than the larger of what it began with and 1.5 m + 1, whoever shared its storage; (2) if no call of a program ever needs room for more than m elements, no object has a capacity beyond what m calls for, and all buffers together hold at most that much for each existing object, shared storage counting once; (3) the calls on such a queue take constant time on average, that is, k calls copy or move a number of elements bounded by a constant plus k.", "quantifier": "all histories of copies, slices, moves and calls, all queue call sequences of any length, all element types, all allocators, all growth factors", "why_tests_cant": "Memory that creeps up or calls that get slow show only after long use with particular lengths; where elements lie in the buffer depends on every earlier call, so no run of fixed length tells about the next one.", "anchors": ["src/ReferenceCountedArray.h: ArrayRef::reserve, AboutToModify, insert, capacity", "src/Array.h: push_back, push_front, shift, pop"]}
{"id": "C113", "title": "base64 in pieces and in one buffer", "statement": "A text may be encoded piece by piece: if all pieces but the last have lengths divisible by three, the encodings one behind the other are the encoding of the whole. Texts whose lengths are divisible by four, valid or not, decode one behind the other to what they decode to alone; so encodings of any pieces, also with padding between them, decode together to the pieces one behind the other. b64dec_buf may decode onto its own input, or to any place before it, and b64enc_buf may encode data that lie at least ceil(len / 3) bytes behind the destination, in particular at the end of a buffer of just the size of the encoding: what is written is what would be written to another buffer, and no other byte changes.", "quantifier": "all texts, all ways to cut them, all charsets of 64 different ASCII characters, all memory contents and distances of source and destination", "why_tests_cant": "Whether a byte is overwritten before it is read depends on the length, on the distance and on where the padding is, at every block; tests see some lengths.", "anchors": ["src/base64.cpp: b64enc_buf, b64dec_buf, base64Encode, base64Decode"]}
{"id": "C114", "title": "A file that other programs change while it is loaded or saved", "statement": "When other programs write to, lengthen or shorten a file while loadFile reads it, or shorten it while writeFile saves to it, neither kills the program. loadFile ends, and every byte of the stream was at its place in the file at some moment during the call; a file that is only appended to is loaded as it was at one moment; a file nobody changes is loaded as it is.", "quantifier": "all histories of the file's contents, all moments of the system calls and of the accesses to mapped memory, all sizes the single reads get, all page sizes, both build configurations", "why_tests_cant": "What is read depends on when other programs write; a test cannot place their writes between two accesses to mapped memory, nor try all histories.", "anchors": ["src/Stream.cpp: Stream::loadFile, Stream::writeFile"]}
{"id": "C115", "title": "What others see of a file while writeFile saves to it, and what is left if the program is killed", "statement": "Whenever another program reads the file while writeFile saves a stream under its name, and if the program is killed at any moment, or a system call fails, the file is the one from before or the whole text of the stream.", "quantifier": "all texts and files from before, all moments, all orders in which bytes reach a mapped file and all sizes in which they are written, all system-call failures, both build configurations", "why_tests_cant": "A test sees the file before and after the call; what it is between depends on the order in which memcpy stores and on how the C library cuts its writes, for every length.", "anchors": ["src/Stream.cpp: Stream::writeFile"]}
{"id": "C116", "title": "Full disks, and disks that fail", "statement": "If the disk has no room for the text, writeFile reports an error; if a part of the file cannot be read, loadFile does. Neither kills the program, nor takes a part for the whole. With room enough, and if all can be read, both do what they do otherwise.", "quantifier": "all texts and files, all page sizes, all amounts of room and sets of unreadable pages, all orders in which bytes reach a mapped file, all system-call failures, both build configurations", "why_tests_cant": "Tests run on disks with room that do not fail; whether the last page is the one too many depends on the exact length.", "anchors": ["src/Stream.cpp: Stream::loadFile, Stream::writeFile"]}
