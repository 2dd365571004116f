# A Lean 4 model of pfi/pficommon

## Layout

* `properties.jsonl` – the properties, in API terms.
* `MANIFEST.json` – status of each property and the exact theorem names.
* `lean/Verif/<Component>/Model.lean` – the model: one Lean definition per C++ function (or loop),
  each with a comment `/repo/...:lines`. Simplifications are stated in those comments.
* `lean/Verif/<Component>/Spec.lean` – the independent specification, where the statement needs one
  (e.g. "is an edit script", "is well-formed UTF-8", "recency list").
* `lean/Verif/<Component>/Lemmas.lean` – helper lemmas; nothing here is claimed.
* `lean/Verif/<Component>/Props.lean` – the property theorems, and beside each an `example`
  showing that a concrete, non-trivial instance meets the hypotheses.
* `seeded/LOG.jsonl` – mutations of the model tried in a scratch copy, and which theorems broke.

## Conventions

* Bytes are `UInt8`; strings are `List UInt8`; code points (`uchar` = `uint32_t`) are `Nat` or `UInt32`.
  Fixed-width C++ integer arithmetic is modelled with explicit wrap-around (`UInt8/16/32/64`, or `% 2^w`) where
  the code can reach it. Where `Nat`/`Int` is used instead, the comment says so and the theorem carries the range
  hypothesis if one is needed.
* `char` is taken to be signed 8-bit where it matters (x86-64 Linux ABI), and the locale to be "C".
* Undefined behaviour, exceptions and non-termination are separate outcomes of the model
  (`Except`/`Option`/inductive result types), never silently totalised.
* Loops are written as structurally recursive or well-founded functions; where fuel is used there is a theorem that
  the fuel given by the wrapper suffices, so that running out of fuel is not an observable outcome.
* Concurrent objects are labelled transition systems whose atomic steps are the critical sections of the code
  (lock ... unlock / wait), run by any number of threads in any order; theorems are invariants over all reachable states.
* STL containers (`map`, `set`, `multiset`, `vector`, `deque`, `list`) are modelled by their documented semantics
  (sorted association lists, lists). `unordered_map` is a finite map with an arbitrary enumeration order.
* If the code violates a property, the model follows the code: the negation is proved on a concrete witness
  (`..._fails`/`..._bug`), and the strongest true version is proved under the name `..._partial`.

## Trusted base

* Lean 4.33.0's kernel, and (for theorems) at most the axioms `propext`, `Classical.choice`, `Quot.sound`.
  No `sorry`, no own axioms, no `native_decide`/`bv_decide`. `vcheck` audits this.
* The transcription from C++ to Lean, made by reading; it is not machine-checked. Every definition cites its source lines.
* The STL, libc, pthreads and the kernel behave as documented.

## Plan per property

* **C01 Base64 round trip** – Model encoder/decoder on `List UInt8` with the shift/mask arithmetic; round trip by induction on 3-byte groups.
* **C02 Base64 decoding rejects malformed text** – Decoder returns `Except`; spec predicate for padded base64. Known leniency after '=' (see Findings): negation + partial.
* **C03 LRU cache follows least-recently-used policy** – Model map+multiset+counter; refinement to a recency list by an invariant over operation histories.
* **C04 Fenwick tree answers range sums** – Model the two recursions on indices; invariant: cell k holds the sum over its bit range; induction over history.
* **C05 Interning is a stable bijection** – Model key->id map and id->key vector; invariant over histories.
* **C06 KMP search finds the first occurrence** – Model failure table construction and search loop; invariants about longest borders.
* **C07 edit_distance is the Levenshtein distance** – Model the DP table row loop; spec = inductive edit scripts; prove cost exists and is minimal.
* **C08 longest_common_subsequence is optimal** – Model the DP loop; spec via `List.Sublist`.
* **C09 longest_increasing_subsequence is optimal** – Model the lower_bound table loop; invariant: table[i] is the least tail of an increasing subsequence of length i+1.
* **C10 Aho-Corasick reports exactly the occurrences** – Model the double array node by node with bounds checks; invariants for the trie, the breadth-first links, and the search (state = longest suffix that is a dictionary prefix).
* **C11 split, join and replace agree** – Model iterator loops on lists; laws by induction.
* **C12 strip, starts_with and ends_with** – Same.
* **C13 UTF-8 encode/decode round trip** – Model decoder/encoder byte-exactly; round trip per code point then by induction.
* **C14 check_utf8 accepts exactly well-formed UTF-8** – Spec: set of encodings of scalar values (RFC 3629); iff theorem.
* **C15 sanitize_utf8 output is clean** – Model sanitize loop; output well-formed, idempotent, identity on clean.
* **C16 Width conversion laws** – Model tables; per-character laws and list laws; handakuten table bug as negation.
* **C17 Bit codes round trip** – Model encoder as bit list with byte alignment, decoder likewise; round trip by induction over operation lists. Byte reader bug as negation.
* **C18 Config files read back what was written** – Model line parser; semantics by fold over lines.
* **C19 MD5 computes RFC 1321** – Model itr_buf padding and compare with RFC padding; rounds modelled on UInt32 and compared with RFC step function. The sine table is a parameter there; that the code fills in the table of the RFC is proved separately, from the accuracy of the sine function.
* **C20 Binary serialization round trip** – Universe of types `Ty` with `denote`; generic writer/reader; round trip by induction on types.
* **C21 Truncated archives are detected** – Same universe; prefix lemma.
* **C22 Stream embedding escapes round trip** – Model escape/unescape of bytes; round trip.
* **C23 Sparse matrix rows survive** – Use the bit-code model for rows; transpose as list manipulation.
* **C24 Mutex gives mutual exclusion** – Transition system of lock/unlock steps over thread ids; invariant.
* **C25 Condition wait releases and restores the lock** – Extend 24 with wait steps.
* **C26 MVar holds at most one value and loses none** – Transition system at critical-section granularity; ghost history.
* **C27 Bounded buffer is a bounded FIFO** – Same.
* **C28 Channels broadcast in order** – Same.
* **C29 Quantity semaphore conserves units** – Same; wait(q) decrement bug as negation.
* **C30 Reader/writer lock results are truthful** – Same; inverted try result as negation.
* **C31 Thread object lifecycle** – State machine over operation lists.
* **C32 Endianness conversion** – Byte-level reversal on lists/UInt; involution.
* **C33 clock_time arithmetic is exact** – Int arithmetic; total microseconds homomorphism.
* **C34 Sampling without replacement** – Model the array shuffle with draws as input; distinctness and surjectivity.
* **C35 Rational arithmetic is exact and canonical** – Int pairs; value in Rat; canonical form invariant.
* **C36 FFT inverts** – Generic field with primitive root; model butterflies; inverse theorem.
* **C37 Mersenne Twister recurrence** – State array model vs. infinite recurrence spec.
* **C38 CSV parsing recovers the fields** – Model the character loop with explicit buffer size; writer spec; overflow as negation.
* **C39 HTML encoding is safe and faithful** – Model encode; decode spec; injection-freedom.
* **C40 JSON print/parse round trip** – Model printer to bytes and parser with lookahead; round trip by mutual induction. Floats are not modelled (opaque).
* **C41 JSON strings survive escaping** – Model json_string::print and parse_string_prim; NUL truncation as negation.
* **C42 JSON merge and equality** – Finite-map model of objects; algebraic laws.
* **C43 JSON casts round trip** – Universe of types; round trip by induction.
* **C44 JSON parser rejects malformed text** – Grammar spec; soundness; '-' and leading zero leniency as negation.
* **C45 URI percent-encoding round trip** – Model loops; round trip by induction.
* **C46 URI parsing splits correctly** – Model the recursive descent with explicit positions and out-of-bounds outcome; bugs as negations.
* **C47 IPv4 text round trip** – Model sprintf/sscanf decimal; round trip.
* **C48 DNS cache is bounded and fresh** – State machine with clock readings; never-expires bug and index mismatch as negations, bounds as partial.
* **C49 Socket output buffering preserves the byte stream** – State machine with an arbitrary kernel oracle; invariant sent ++ buffered = written.
* **C50 Socket input buffering preserves the byte stream** – State machine with oracle chunking; refinement to reading from a flat byte list.
* **C51 HTTP header map** – Association-list model; map laws under case folding.
* **C52 HTTP headers survive the wire** – Send then read round trip on byte lists.
* **C53 HTTP bodies are delivered exactly** – Stream-buffer state machines; 0xFF and zero-length bugs as negations.
* **C54 RPC calls are transparent** – Compose 20 with the protocol on both sides.
* **C55 MessagePack-RPC replies match requests** – History of messages; join loop.
* **C56 RPC server shutdown wakes its waiters** – Transition system with condition variable; lost wake-up as negation, single waiter as partial.
* **C57 CGI query strings decode** – Model the pointer loop; uses 45.
* **C58 CGI multipart bodies are recovered and parsing terminates** – Model the loop with divergence outcome; negations and partial.
* **C59 optional behaves like a value** – Owning pointers over an explicit heap, refined to plain `Option` values for every history; order laws.
* **C60 LRU set stores** – Same model as C03; the claim fails for a present key, so the negation and a `_partial` theorem for absent keys.

## Findings: places where the code does not do what its API promises

Found while reading; each is confirmed in the model by a theorem where listed in MANIFEST.json.

* `src/concurrent/qsem.h:59` – `wait(q)` decrements the quantity by 1 instead of `q`.
* `src/concurrent/rwmutex.cpp:99` – `read_lock` with a tiny timeout returns the raw errno of `pthread_rwlock_tryrdlock`, so success reads as `false`.
* `src/data/code/code.cpp:183` – `decoder::byte` does not align to the byte boundary although `encoder::byte` does.
* `src/data/string/ustring.cpp:255-292` – the handakuten table contains voiced rows (e.g. half-width KI + handakuten becomes KU).
* `src/data/encoding/base64.cpp:100-132` – everything after a `=` in third or fourth position is ignored.
* `src/text/csv.h:136` – terminating NUL written without a capacity check (one byte overflow at exactly full buffer); reads past the end on unterminated quotes.
* `src/text/json/base.h:300` – string printing stops at an embedded NUL.
* `src/text/json/parser.cpp` – `-` alone parses as 0; leading zeros are accepted.
* `src/network/uri.cpp:329` – userinfo skips 6 characters per percent-encoded octet and can run past the end; `:407` IPvFuture never parses; `:566` h16 needs exactly four digits.
* `src/network/dns.cpp:192` – the cached entry's time is refreshed before the expiry check, so entries never expire; concurrent misses desynchronise the index.
* `src/network/http/base.cpp` – chunked body returns a signed char, so byte 0xFF reads as end of file; a zero-length fixed body never ends.
* `src/network/rpc/base.cpp:257` – `notify_one` with several waiters leaves the others blocked.
* `src/network/socket.cpp` – buffers are not reset on close/reopen, so stale bytes cross connections.
* `src/network/cgi/base.cpp` – `substr(cur, next)` passes an end position as a length; a delimiter that starts within a false delimiter's look-ahead is missed.
* `src/data/lru.h:72` – `set` on a key that is present is ignored, so `set` then `get` can return the old value. (Capacity 0 makes `set` undefined, but the header documents `size > 0`, so that is a precondition and not a defect.)
* `src/data/intern.h:139-140` – loading an archive whose ids are out of range writes out of bounds.
* `src/data/string/algorithm.h:71-74` – `longest_increasing_subsequence` keeps elements in a `vector<int>`, so wider element types give wrong results or a write out of bounds.
* `src/data/string/utility.h:109` – `strip` on a `ustring` calls `isspace` with code points above 255, which is undefined behaviour. For negative `char` values the model relies on glibc's table covering -128..255; ISO C leaves them undefined.
* `src/data/string/ustring.cpp:54` – U+FF60 is treated as a half-width form and becomes U+0000.
* `src/data/code/code.cpp:162` – `decoder::attach(unsigned char*)` does not pad, and every bit-level read loads eight bytes, so reading the encoder's own buffer runs past its end.
* `src/data/code/code.cpp:113` – `rice(0xFFFFFFFF, 0)` wraps to `delta(0)`, which evaluates `__builtin_clz(0)`; `gamma(0)` and `delta(0)` do so directly.
* `src/data/digest/md5.cpp:74-79` – every `md5sum` call rewrites a shared static table without synchronisation (a data race, though all writers store the same values).
- Serialization: container sizes are written as 32-bit numbers without a check; a vector of 2^32 elements is written like an empty one (`size_truncated_fails`).
- Serialization: the readers of `set<T>`/`unordered_set<T>` declare `T v;` and insert it even if reading it failed; for arithmetic `T` the value is indeterminate (`truncated_set_ub`). The size read from the archive is trusted, so a short malicious archive can make the reader loop 2^32 times.
- Serialization of an embedded stream: the reader does not test the archive, so a truncated archive makes it loop forever, appending to the target (`truncated_embed_diverges`); cut in the middle of the end marker it is accepted (`cut_marker_accepted`).
- Sparse matrix: the vector overload of `get_row` replaces its argument, the map overloads assign into it without clearing (`rows_survive`, `map_contents`). A negative row index is not tested (`negative_index`). Column `INT_MAX` first in a row overflows (`int_max_column`). The offsets the writer accumulates (`append_row`, line 184) are wrong but never used. `flush` evaluates `&bytes[0]` for an empty row.
- **C24, plain mutexes.** `mutex_base::impl::unlock` (`mutex.cpp:101-105`) does not look at `holder` for a non-recursive mutex: an unlock by a thread that does not hold the mutex sets `holder` to -1 and calls `pthread_mutex_unlock` on a mutex owned by another thread (undefined; with glibc it releases it). Witness: `plain_unlock_by_nonholder_is_undefined`. Recursive mutexes are not affected.
- **C24/C25, scope.** One mutex, any number of threads, steps are single accesses to `holder`, `cnt` and the pthread mutex under sequential consistency. `holder` and `cnt` are plain `int`s read outside the lock, a data race in the C++11 sense; the proof shows that the value read is only ever compared with the reader's own id, which no other thread writes. `cnt` is unbounded in the model (2^31 nested locks overflow it). `pthread_mutex_lock` is assumed never to fail. A timed wait that fails with EINVAL without releasing the mutex is not modelled.
- **C29.** `qsem::wait(q)` waits until `q` units are available but then executes `quantity--` (`qsem.h:59`): it takes one unit whatever `q` is. With 4 units two `wait(3)` succeed (`qsem_accounting_fails`).
- **C30.** `rw_mutex::read_lock(sec)` with `sec < 1e-9` returns the error code of `pthread_rwlock_tryrdlock` converted to `bool` (`rwmutex.cpp:98-99`): it returns true exactly when the lock was *not* acquired, and leaks the lock when it was. A caller (or `scoped_rlock lk(m, 0)`) then unlocks a lock it does not have.
- **C26–C29, scope.** `Verif/Monitor` models the pattern shared by mvar, pcbuf, qsem and a chan end: mutex, guard loop on one condition, critical section, release, notify_all. The mutex and the condition are used as C24/C25 establish them; a critical section's body is one step because only the owner touches the state (`one_holder`). A `pcbuf` of capacity 0 is allowed: pushes wait for ever. The value copy inside the critical section is assumed not to throw.
- **C31, scope.** One thread object used by one thread. `pthread_create/join/detach` succeed or fail as the environment likes. A failed join leaves the object running, as in the code.
- **C33.** `clock_time::operator<` is wrong for times that are not normalised, and `clock_time(calendar_time)` copies `usec` unchecked; sums of such times can overflow an `int32_t` (`lt_unnormal_fails`, `add_unnormal_overflows`).
- **C34.** `sample_without_replacement(r, 0, 0, res)` returns false although there is an empty selection (`sample_rejects`).
- **C35.** `ratio<T>::gcd` calls `abs` unqualified. For a `T` wider than `int`, only the `abs(int)` of `<cstdlib>` may be visible; then 64-bit numbers are truncated and `ratio(1, 2^32)` divides by zero (`int_abs_fails`). A zero denominator divides by zero (`construct`).
- **C61, scope.** The raw generator outputs are inputs of the model. `next_double`, `next_int(a)`, `next_int(a, b)` are modelled bit by bit; `next_gaussian` and `next_double(a)` are not.
- **C36 (FFT).** `Verif/Fft`. Modelled: `src/math/fft.h` in full (`fft`, `ifft`, `fft2d` and `ifft2d` on linear arrays and on matrices). Arithmetic is exact, over any commutative ring, then instantiated at the complex numbers with the sines and cosines of the code; for rounding see C104. Findings: (1) `ifft` does not divide by the length, so `ifft(fft a)` is `n·a`; (2) `fft2d(b, e, 0)` divides by zero (`not_fft2d_defined`); (3) line 146 tests `h` a second time where `w` was meant: harmless, since each row is tested again by `fft_wrap`; (4) `fft2d` on a linear array whose height is not a power of two throws only after its rows have been overwritten.
- **C38 (CSV).** `Verif/Csv`. Modelled: `csv_parser::parser_impl::next` with its growing buffer and the offsets of the row, `get` read as C strings, `parse_csv`. Not modelled: copies of `csv_iterator` (line 190; copying a copy takes the row the parser is at, not the row of the copy; the compiler-made assignment copies pointers into the buffer of the other iterator). Findings: (1) line 136 stores the terminator without testing the size of the buffer: a write outside it when the terminator falls on 1024, 2048, … (`parse_render_exact` says exactly when, `not_parse_render` is a witness); (2) a quoted cell, an open quote, a comma or a carriage return at the very end make the parser look behind the end of its input (`not_parse_total`; on a `std::string` that read gives the terminating 0 byte in practice; an open quote then runs on past the end); (3) a carriage return that is not followed by a newline swallows the next character; (4) a 0 byte in a cell cuts it short.
- **C39 (XHTML writer).** `Verif/Xhtml`. Modelled: `html_encode`, `tag_elem`, `text_elem`, `prim_elem` with `render` and `pretty`. The specification is a separate strict reader of markup (one character at a time); what it reads in the output is the tree. Condition: names of elements and attributes contain no space and no character of markup, and there is no raw text (`prim_elem` is raw by design). Finding: names are passed through `html_encode`, which does not protect them: a space in a name starts an attribute (`not_names_safe`).
- **C40, C41, C44 (JSON parser and printers).** `Verif/Json`. Modelled: `json_parser` character by character with its one-character read-ahead, `json_builder`, the streaming callbacks, `print` and `pretty` in both escape modes, UTF-8 decoding of the stream. The specification is the grammar of RFC 8259 as an inductive relation between values and texts. Not modelled: `strtod` and the stream's formatting of a `double` (parameters), line and character numbers in messages and the depth of the call stack (both are in `Verif/JsonPos`, C98), `buf_len` beyond 2^30. Findings: (1) numbers: `-` alone is 0, leading zeros and empty fractions or exponents are accepted inside arrays and objects (`number_deviations`); (2) the tests `it != end` do not see a character already read ahead, so the digit of a one-digit unsigned exponent at the end of the input is dropped: `1e5` reads as 1 (`short_exponent_lost`); (3) the printer stops at U+0000 (`nul_truncates`); (4) a `double` is printed with 12 digits and need not come back (`float_precision_lost`); (5) `operator>>` on a stream reads one character past a number and drops it with the parser; (6) malformed UTF-8 goes through copies of an `istreambuf_iterator` after the original has moved on, so the replacement depends on the library (parameter `bad`); (7) `iscntrl` is called with negative `char` values.
- **C42 (JSON equality and merge).** `Verif/JsonEq`. Values are trees; that `json` handles share their nodes (and that changing one changes all) is not modelled. The specification `Same` is an inductive relation with members as sets. Findings: (1) `==` converts integers to `double`, so it is not transitive (`eq_not_transitive`); (2) `merge` is shallow: objects under a common key are replaced, not merged.
- **C43 (JSON casts).** `Verif/JsonCast`. The supported types are a universe (`Ty`) with `int`, 64-bit integers, `float`, `double`, `bool`, `string`, `json`, vectors, maps, optionals and classes; values of uninitialised variables are `none`. `float` is generic in its two conversions (`Floats`); `JsonCast/Num` gives them with the exact numbers of `Verif/Double`, and `PropsNum` has the theorems about rounding. Not modelled: user-written `serialize` functions that do more than list named members. Findings: (0) an `unsigned long` from 2^63 on is written as a negative number (`unsigned`), and no unsigned type can be read; a number too large for a `float` is read as infinite, not reported (`float_of_double`); (1) `json_cast<int>` keeps the low 32 bits of a larger number (`cast_int_wraps`); (2) `optional<optional<T>>` holding an empty optional comes back empty (`cast_optional_optional`); (3) with defaults an `optional<int>` reads an uninitialised `int` (line 577) for any value but `null` (`default_optional_int_indeterminate`), the other numbers when the value has the wrong kind (`default_optional_long`); (4) with defaults an array shorter than the default vector keeps the default's tail (`default_vector_keeps_tail`).
- **C45 (percent-encoding).** `Verif/UriCode`. Modelled: `uri_encode`, `uri_decode`. The specification is form encoding as a relation. Finding: a `%` followed by two characters that are no hexadecimal digits is decoded all the same, with 0 for each bad digit (`decode_bad_escape`).
- **C47 (IPv4 addresses).** `Verif/Ipv4`. Modelled: both conversions (with `sscanf`'s `%d` as C defines it), `==` and `<`. Findings: (1) a number beyond `int` is undefined in `sscanf` (`ofStr_overflow`; glibc stores the low 32 bits, so 4294967297.0.0.1 is read as 1.0.0.1); (2) text after the fourth number, white space and signs are accepted (`ofStr_lenient`); (3) `none` and `broadcast` are the same address (`ofStr_none_is_broadcast`).
- C46 (`uri`): `parse_userinfo` moves its pointer twice over an escape (uri.cpp:329-330), so a percent sign in an authority can make it read
  behind the text (`parse_undefined`), cut the text at wrong places (`parse_wrong`: host `c` instead of `%41`) or refuse a legal one. Groups
  of IPv6 addresses must have exactly four digits, `::` stands for exactly one group unless it comes first, `IPvFuture` is never accepted
  (the loop condition at 407-410 is inverted), and names that begin with an IPv4 address are refused. `operator<<` writes `scheme://` also
  when there is no authority, and no `//` when there is no scheme. A failed parse cannot be told from the empty reference. The model uses
  the character classes of the "C" locale; `isalpha` of a negative `char` is undefined in C and modelled as false.
- C48 (`cached_dns_resolver`): entries never expire, because the time of access is set to the current time just before it is compared with it
  (dns.cpp:192,195). Two threads that miss the same key at the same time leave two elements in the index: the assertion at 215 fails later,
  and with `NDEBUG` the wrong entry is evicted. A `max_size` of 0 or less makes the first `resolve` dereference the end of an empty set. The
  two critical sections of `resolve` are atomic steps of the model; the mutex is C24/C25, and the real resolver (`getaddrinfo`) is an input.
- **Stream sockets (C49, C50, C62), `socket.cpp`.** The kernel is an arbitrary function from the number of a system call to its answer. Output and input streams are proved right on one connection, with failures. Found: `close` does not empty the buffers, so unsent bytes of one connection go to the peer of the next (`stale_output`) and unread ones are read as its data (`stale_input`); a socket whose connection broke has `sock = -1`, and then `connect` and `shutdown` refuse for ever (`broken_forever`); after a failed flush the unsent bytes are dropped, a second flush reports success and `write` goes on taking bytes (`lost_silently`); `read` with a negative size and bytes in the buffer is undefined (not modelled). Not modelled: addresses, DNS inside `connect`, timeouts, `server_socket`.
- **Programs on a socket (`Verif/Socket/Prog.lean`).** Code that reads from a socket is a `Prog`: a tree of calls. It is proved once for all that a reading program gives on the socket, with a kernel that delivers but cuts the stream anyhow, what it gives on the plain stream (`socket_eq_flat`), and with any kernel what it gives on a beginning of the stream (`socket_prefix`). HTTP is modelled on top of this.
- **HTTP headers and bodies (C51–C53), `http/base.cpp`.** Found: `get` of a missing name inserts it (`get_inserts`); so the constructors of `request` and `response` add empty `Transfer-Encoding` and `Content-Length` fields to what they read. A header read from an `istream` keeps the carriage returns in its values, and an empty header swallows the body (`header_istream`). A body of length 0 never ends but delivers what follows (`fixed_endless`). In a chunked body the byte 255 reads as end of file (`chunked_eof_wrong`). A negative chunk size is taken over and makes `read` call `memcpy` with a negative size when the socket has bytes in its buffer (`chunked_negative`): a peer can cause undefined behaviour. Not modelled: `tolower`/`isspace` on negative `char`s (taken to be glibc's).
- **CGI forms (C57, C58), `cgi/base.cpp`.** Modelled: `exec` up to the call of `run`, `parse_input`, `parse_multipart_input` with its recursion, `extract_header`, `extract_attr`; `lexical_cast<size_t>` as the stream reads it. Not modelled: the answer written by `exec`, the error page, the depth of the call stack (4 MB of nested parts recurse some 100 000 deep), streams that are at their end before `exec`. Found: a line of a part that begins with `--` makes the parser jump as many characters as the boundary has, over the delimiter if it is near: mails with a signature swallow the parts behind them (`multipart_swallowed`); a part that is itself multipart is never read when sent with CR LF (`nested_crlf`); attributes are cut with `substr(cur, next)`, where the second argument should be a length (`attribute_wrong`); a missing `boundary=` is noticed, but the parsing goes on with a wrong boundary (`boundary_missing`); a boundary in quotation marks or followed by further parameters is taken literally; a body without a closing delimiter makes `exec` throw; a raw 0 byte hides the items behind it (`query_oddities`); a negative `CONTENT_LENGTH` counts as huge, one that is no number as 0.
- **Stopping an RPC server (C56), `rpc/base.cpp:53-258`.** Transition system at the granularity of operations on shared data, with the mutex explicit. Found: `notify_one` (line 257) wakes one waiting thread, all others wait for ever (`two_waiters`; `notify_all` is needed); a server with no worker (0 threads, or the first thread not created, after which `serv` calls `stop`) stays in the state STOPPING for ever (`no_workers`). Not modelled: what the calls of EXIT_MSG inside `stop` do on the network (they are steps that succeed, fail to connect, or leave `stop` by another exception), replacement of `threads` by a second `start`, the destructor.
* `src/network/rpc/base.cpp:223-227` – a registered function that throws an `rpc_error` (as one does that makes a remote call itself) leaves its
  caller waiting: nothing is sent and the connection stays open (`Rpc.Props.throwing_hangs`). Any other exception leaves the thread.
* `src/network/rpc/base.cpp:193-206` – a function registered as `<<<PING>>>` or `<<<EXIT>>>` is never called; the caller of the latter gets 1, the
  length of the string `"1"` (`ping_is_no_name`, `exit_is_no_name`).
* `src/network/rpc/base.cpp:216,224`, `invoker.h:63` – a function without arguments is run although the request broke off behind its name
  (`cut_request_runs`).
* `src/network/rpc/caller.h:48-64` – `method_not_found` names only the first word of the name (`space_in_name`).
* `src/network/rpc/base.cpp:289,295` – `!ss` tests the pointer, not the stream; harmless, as the comparison with `PONG_MSG` catches failures.
- **MessagePack-RPC (C55), `Verif/Mprpc`.** A client's stream and its server are a transition system: bytes under way and in the unpackers, `write` and `read` in pieces, timeouts and errors at every point, and records of the calls for the statements. The library `msgpack` is not in the repository; `MsgPack.lean` describes it by the format of its version 0.5 (trusted), and `MsgPackLemmas.lean` proves that unpacking inverts packing and does not depend on how the input is cut. Argument types are any types with a `convert` that inverts `pack`. Not modelled: several clients at one server thread (a thread serves one connection at a time), `SIGPIPE`, `rpc_server::run`/`stop`/`join`, running out of memory. Found: (1) a write given up half-way by its timeout (object_stream.cpp:104-120) leaves part of a message on the stream, and the next message is read as its rest: the server runs a function with an argument that no call had (`cut_request_misread`), or the client waits for ever (`cut_reply_misread`); (2) ids are 32 bits, so after 2^32 calls given up a call can take an old response (`ids_wrap`); (3) a client keeps its stream for ever, also when the server has closed it (rpc_client.cpp:50): every later call fails (`dead_stays`); (4) the method of a request is converted outside of the `try` (rpc_server.cpp:169), and `unpack_error` is not caught: any client can end the server (`bad_method_crashes`, `garbage_crashes`); (5) missing arguments are not noticed and leave the variables as they are, indeterminate for numbers (`few_arguments`); further ones are ignored; (6) a function that throws an `rpc_error` gives no response (`throwing_hangs`).
- **Aho–Corasick (C10), `Verif/AhoCorasick`.** Modelled: the sorting of the words, `construct` with its stack, the search for a base, `resize`, the queue and the links, and `search`, on a list of nodes with `none` for accesses outside of it. `search_eq` is a complete description for all dictionaries. Not modelled: overflow of `int` (2^31 nodes). Found: words that contain the character 0 are never found, as 0 also stands for the end of a word in lines 83 and 104 (`nul_not_found`); a word that is listed twice is reported by its first index only (`second_not_found`); the empty word is never reported.
- **`lexical_cast` of integers (C64), `Verif/Lexical`.** Modelled: the casts from a string to an integer type, from an integer to a string and between integers (`src/lang/cast.h`), with the streams of libstdc++ in the C locale (trusted) as functions on bytes. `signed_cast` and `unsigned_cast` say exactly which texts give which numbers; `refused` which ones throw. Not modelled: `double`, `bool`, and the character types (`int8_t`, `uint8_t`), which streams read as characters. Found: everything behind the number is ignored (`accepts_junk`: `"12abc"` is 12), and a negative text is accepted for unsigned types and wraps around.
- **HTTP messages (C63), `Verif/HttpMsg`.** Modelled: `request` and `response` of `src/network/http/base.cpp`, sending and receiving, as programs on the socket of C49/C50, with the header and bodies of C51–C53, the URIs of C46 and the casts of C64. `sscanf` and `istringstream` are functions on bytes (C locale, trusted). Proved: what is on the wire for every kernel, and what a receiver makes of it, over two sockets with arbitrary kernels. Left out: `body()` after `send` (lines 500, 605), the iostream layer above the `streambuf`s. Found: `header::send` ignores the result of its last `puts`, so that a message of 8192 or 8193 bytes without a body can be lost with success reported (`lost_unreported`); `Content-Length: 0` makes a body that does not end (`empty_body_wrong`); a request line of 4095 or 4096 bytes makes the receiver drop the header and take it for the body (`long_line_drops_header`); receiving inserts two empty fields (`fields_added`); a URI that is refused becomes empty without notice (`uri_dropped`); a status line without code leaves `code_` without a value (`code_indeterminate`); `sscanf` on a version that does not fit is undefined (`version_overflow`).
- **Web server for CGI programs (C65), `Verif/CgiServer`.** Modelled: `run_server::process`, `gen_resp`, `str_to_upper` (`src/network/cgi/server.cpp:190-283`) and the end of `cgi::exec`, as programs on the socket of C49/C50, with the messages of C63 and the forms of C57/C58. A CGI program is any function of a state, the request and the header; the page of an error is any text. `strtol` is a function on bytes (trusted). Not modelled: the constructor with `getopt`, the listening socket, several threads at once, the destructor (which waits for threads that never end). Found: names of variables keep the hyphens of field names, and two empty variables are added (`variables_wrong`); a POST in chunks gives an empty form (`chunked_form_lost`); an exception, also that of a malformed request, closes the connection without an answer (`exception_unanswered`); a body that ends early closes the socket at the end of file, so that the error page is not sent; a broken chunk leaves 0 characters in the data and `run` is called all the same; a status without number becomes 0 and one beyond `int` wraps (`status_wrong`); a value with a line end splits the header (`header_split`); HEAD gets a body.
- **Streams opened on a URL (C66), `Verif/HttpStream`.** Modelled: `basic_httpstreambuf` (`src/network/http/stream.h:48-93`) on top of the models of URIs, sockets and HTTP messages; the network is a function from host and port to an answer, so a theorem that only speaks of the URL's host and port shows that no other is asked. `httpstream` itself only keeps the buffer in a shared pointer. Found: the port is taken modulo 65536 (`port_wraps`); the fragment and the user information are sent in the request line (`too_much_sent`); a URL without a scheme gives an illegal request line (`no_scheme`); `HTTP://` is refused (`capitals_refused`); the Host field lacks the port (`host_without_port`); a text that is no URL is taken for the empty URI (`bad_url`); a body cut short is not noticed (`cut_short`); the status cannot be seen (`error_page`); IPv6 hosts keep their brackets (`brackets`).
- **Calendar times (C67), `Verif/Calendar`.** Modelled: `src/system/time_util.cpp` except `get_clock_time`. `localtime_r` is modelled for any zone (a function from instants to an offset and a flag) with the Gregorian calendar, `mktime` is a parameter constrained by `Inverts` (the C standard), both trusted. The specification of dates counts days one by one from the epoch. Found: the constructor from year, month, day and so on reads `isdst` before it has a value, so its behaviour is always undefined (`make_undefined`) and the date depends on the memory (`make_depends`); a clock time beyond the year 2147483647 leaves `tm` unset, and it is read (`far_future_undefined`).
- **SQL values (C68), `Verif/Sql`.** Modelled: `src/database/type.h` and the overloads for up to ten arguments of `statement::execute`, `statement::fetch_row` and `connection::run`. A `double` is given by its bits. Found: `execute` with ten arguments writes behind its vector (`execute_ten`); `fetch_row` with eight to ten variables expects one column less than it reads (`fetch_many_refused`, `fetch_many_undefined`); NULL and everything that is no string is the empty string for a string variable (`string_swallows`).
- **Transactions (C69), `Verif/Transact`.** Modelled: `committer` (`src/database/util.h:43-75`), and the connections to PostgreSQL and MySQL as far as they begin, commit, roll back, run and reconnect. The servers and `libpq`/`libmysqlclient` are modelled as state machines (trusted): statements are any functions on the data, each call may go well, be refused, or lose the connection before or after it acts. `&v[0]` of an empty vector is taken for a pointer that is not used. Found: on PostgreSQL, a body that catches the exception of a statement ends normally and nothing is done, as the server answers `COMMIT` with `ROLLBACK` and the code does not look (`pg_caught_error_lost`); a connection that is lost in a block and does not come back ends the program, since `rollback` throws in a destructor (`pg_lost_terminates`; the destructor of the connection throws likewise); a block in a destructor that runs because of an exception is rolled back and reports success (`pg_unwinding_done`). On MySQL, `run`, `prepare` and `query` reconnect silently: after a loss inside a block the rest is done without the beginning (`my_loss_splits`), a lost or refused `COMMIT` is reported as success (`my_commit_lost`, `my_commit_refused`), a refused `BEGIN` makes each statement permanent (`my_begin_refused`); `prepare` after a failed reconnection passes a null pointer on (`my_prepare_undefined`).
- **PostgreSQL texts (C70), `Verif/Postgres`.** Modelled: `src/database/postgresql/statement.cpp`, `value.cpp` and `result.cpp`, on the connection of C69. `strftime`, `strptime`, `atoi` and the fixed output of a `double` are functions on bytes (glibc, "C" locale; the output rounds exactly, to even), `strtod` is a parameter. What the server reads and shows is specified by `Tells` and `Shown` (trusted). Found: all prepared statements share the one without a name, so a statement that was prepared before a transaction began runs `BEGIN` in it and reports success (`prepared_before_transaction`), and of two prepared statements the first runs the query of the second (`prepared_two`); question marks in literals are numbered too (`literal_changed`); strings are cut at a 0 (`zero_cut`); numbers below 5e-11 become 0 (`small_lost`); reading a time is undefined (`time_undefined`), and with any memory the fraction `.5` is five microseconds, and a time without a fraction is a null pointer for `atoi` (`time_misread`); columns of types such as `char(n)` or `numeric` come out as empty strings (`unknown_column_empty`), and their numbers are printed to standard output.
- **MySQL binds (C71), `Verif/Mysql`.** Modelled: `bind_length`, `to_bind`, `from_bind` (`src/database/mysql/value.cpp`), and `execute` and `fetch_row` of `src/database/mysql/statement.cpp` with buffers as bytes that are kept from row to row. Trusted: the client library fills a buffer as far as it goes, reports the whole length, and for NULL sets only the flag; `float` to `double` is a parameter; `&v[0]` of an empty vector (line 118, an empty string or NULL) is taken as a pointer that nobody reads. Findings: `to_bind` sets `is_null` to the null pointer for NULL (value.cpp:124-127), which the library takes as "not NULL", so that the server is told an empty decimal (`null_not_null`); `VARCHAR`, `MEDIUMINT`, `DECIMAL` and `YEAR` columns make `fetch_row` throw (`varchar_refused`); unsigned columns are read as signed (`unsigned_misread`); no column can be read into a `bool`, although a `bool` can be bound (`no_bool`); reading a time is undefined because of the constructor of `calendar_time` (`time_undefined`).
- **JSON archives (C72), `Verif/JsonArchive`.** Modelled: `json_oarchive::put`, `json_iarchive::get` and `via_json` on top of C40 and C43; a stream is the list of characters it will yield. Each `get` makes a new parser, so that a character read ahead is lost: harmless here because a line feed follows each value, but `is >> j` on `7[1]` takes the bracket away (`number_takes_more`). `json_iarchive` and `json_oarchive` derive from `safe_bool` without `bool_test`, so testing an archive does not compile.
- C73 (`Verif/Any`): `any` and `scoped_ptr` on a heap in which the use of deleted memory is a distinct outcome; a simulation by plain variables, with the
  invariant that all memory is owned by exactly one object. Finding: `p.reset(p.get())` on a `scoped_ptr` deletes the object and keeps the pointer, so that the
  destructor deletes it again (`scoped_reset_self`); boost's `scoped_ptr` asserts against it. Not modelled: values whose destructors throw, `weak_ptr` and
  `shared_ptr` (they are `std::tr1`'s).
- C74 (`Verif/Mmapper`): mappers on an operating system that gives descriptors and addresses out again. Finding (a real bug): the move constructor of `mmapper`
  copies the members and then lets `mmapper().swap(rhs)` reset the source; the temporary now owns the descriptor and the mapping and releases them at the end of the
  statement. The new mapper says `is_open()` and has the right `size()` (this is all that the unit test looks at), but its memory is unmapped, and its destructor
  closes the descriptor and unmaps the address again, whoever has got them in the meantime (`move_unmaps`, `move_assignment_unmaps`, `move_closes_another`).
  Second: `close()` does not reset the length, so that `size()` and `end()` of a closed mapper still tell of the old file (in the specification `means`).
  Not modelled: files that are truncated while they are mapped (the access is then a fault), page granularity, `EINTR` (the loops of `NO_INTR` end).
- C75 (vectors, `Verif/MathVec`): the twelve generated classes of `math/vector.h` are translated one by one, operation by operation; `Classes.lean` collects them in one list, and the theorems are about all members of that list. Findings: `operator>>` reads into uninitialised temporaries, all in a row, and then builds the vector without looking at the stream, so that a text that is bad before the last component makes the vector indeterminate (`read_failure`); `operator[]` out of range runs off the end of a function without returning (undefined) except in `component_by_name::vector2`, which asserts; `%` of the classes with arrays uses members that do not exist there. Trusted or left out: exact arithmetic in place of floating point numbers.
- C76 (lock objects, `Verif/Locks`): a machine on which any number of threads make, copy and destroy lock objects on locks of the three kinds; the invariant says that the holders of every lock are a permutation of its locked objects. Findings: `scoped_rlock(m, 0)` (and `rlock(m, sec)` for every `sec < 1e-9`) reports the opposite of what happened, because `read_lock(double)` returns the error code of `pthread_rwlock_tryrdlock` as a `bool` (`rwmutex.cpp:99`): a free lock is leaked for ever (`tiny_read_leaks`), a lock that a writer holds is taken to be acquired and then unlocked by a thread that does not have it (`tiny_read_not_exclusive`). A negative time means no limit for `scoped_rlock(m, sec)` but a single try for `rlock(m, sec)` (`negative_times`). `singleton::instance` has no `return` for the case that the mutex cannot be locked.
- C77 (`socketstream`, `Verif/SockStream`): the stream buffer of `src/network/iostream.h` as programs on the socket of C49/C50, with the functions of `std::iostream` that call it (`get`, `peek`, `read`, `std::getline`, `put`, `write`, `flush`; their use of a buffer without areas is trusted to be as in the standard). The specification is a stream in memory. Findings: `setsock` and `connect` do not forget the byte of look-ahead, so that after a `peek` (or a formatted extraction, which ends with one) the first byte read from the new connection is one of the old connection (`stale_byte`); a default-constructed `socketstream` follows a null `shared_ptr` in every operation and in `is_connected()` (`unset_undefined`); `flush` with a null socket follows a null pointer, as `sync` is the only function that does not look (`null_flush_undefined`). Not modelled: seeking, `putback`, formatted extraction, `xsputn` of 2^31 bytes and more (the size is cut to `int`), another user of the same socket.
- C78 (descriptors, `Verif/Descr`): the descriptor table of the process, in which other threads take and give back numbers before every system call; all functions of the network classes that make, use or close descriptors; programs are any sequences of calls on any objects. `close` frees the number whatever it answers (Linux). Calls other than `close` that are interrupted are taken with their final outcome. Findings: `server_socket::create` on a listening socket forgets the old descriptor (`create_twice_leaks`), and if the second `create` fails, `sock` keeps a closed number while `connected` stays true, so that `accept` and the destructor act on whatever has that number now (`create_twice_harms`); `NO_INTR(ret, ::close(fd))` repeats an interrupted `close` on a number that is free already and may belong to another thread (`interrupted_close`; Linux asks not to repeat); `server_socket::accept` ignores the result of `bind_socket` and so loses the accepted connection if closing the unused descriptor of the new `stream_socket` reports an error (`accept_leaks`). Not modelled: exceptions in between, copies of `stream_socket` and `server_socket` (the classes can be copied, and the copies close the same descriptor), concurrent use of one object.
- C79 (`Verif/Reflect`): `reflect.h` describes `float`, `double` and `long double` alike, so equal descriptions do not imply equal wire formats (`float_ambiguous`). Names are printed without quoting (`text_ambiguous`). A class that calls the `serialize` of its base after `NAME` is described under the name of the base. `get_type` does not compile for pairs, arrays, lists, deques, sets and unordered containers: the overload for any archive and the one for `reflection` are ambiguous; nor for functions with `void` results or reference arguments. Not modelled: default construction of the objects on the way, the compiler's choice of overloads (read off by hand).
- C80 (`Verif/MpServer`): `rpc_server` of mprpc. A failed `run` leaves null pointers in `serv_threads`, which a later `join` follows (`failed_run_join`). `stop`, `create`, `run` without `join` revives old workers, which nobody can join any more (`restart_without_join`). The destructor neither stops nor joins (`destroyed_too_early`). `create` between `stop` and `join` makes `join` hang (`create_before_join`). A `stop` overtaken by a `run` closes the new server's socket while `running()` stays true (`stop_overtaken`). Without timeout a silent client blocks `join` for ever (`silent_client`). `process` reads `sock.get()` and then calls `accept`: after a `stop` in between the number can belong to another socket (`serves_foreign`). `run(0)` returns true at once (`no_workers`). Not modelled: negative thread counts, exceptions that leave `process`, running out of memory, `close()` called directly, data races on `fd` as such (each access is one step).
- C81 (`Verif/Page`): programs as lists of statements, executed on the stack of `xhtml_builder` and the `tag_inserter`s; the specification builds the trees block by block, without a stack. Findings: `tag__` initialises `__TAG__` from a temporary; if the compiler does not leave out the copy, the temporary closes the tag at once and `__TAG__` closes its surroundings, which is undefined behaviour for every page with a tag (`copy_undefined`); an attribute with an empty value is written without a value, which is not XML (`empty_value`); the macro `datatime__` is a misspelling of `datetime`, and `onClick` and the like are not XHTML (`macro_names`); the error page of `cgi::exec` is a `body` that contains a `head` and another `body`, and is sent as `text/plain` (`error_page`). Not modelled: `bad_alloc` in `~tag_inserter`, which would end the process; how a program decides what to do (it is given as the list of what it does).
- C82 (`Verif/Sysstat`): `get_sysstat` on Linux, on the contents of `/proc/loadavg` and `/proc/meminfo`. Findings: the kernel's kB are 1024 bytes, but 1000 here (`kilobytes`); `atoi` for what is free and cached (but `atoll` for the total) makes machines with 2 TB of free memory undefined (`free_undefined`); files that cannot be read give zeros and the return value 0 (`nothing_known`). The load is the double nearest to the kernel's number (`load_value`, with `atof` from the model of `strtod` in `Verif/FloatText`). Not modelled: the parts for Solaris and macOS; the two reads of `/proc/meminfo` are of one content.
- C83 (`Verif/CgiRun`): `get_env`, `run_cgi` and `run_fcgi` with its stream buffer, on the model of `cgi::exec` from C65; `exec` adds empty variables to the environment when it looks for them (`touched`). Findings: an exception from `exec` leaves `run_fcgi::run`, so the process ends without `FCGX_Finish` and all later requests are lost (`exception_ends`), and an empty POST of type `multipart/form-data; boundary=x` is enough for that, whatever the program (`anybody_ends`); `xsputn` passes the length as an `int` (`large_undefined`). Trusted: the functions of the FastCGI library, `std::cin` and `std::cout`, `istream::read` and `ostream` on a buffer without areas. Not modelled: the choice by `FCGX_IsCGI` (it calls `run_cgi`), variables given twice (the last counts).
- C84 (`Verif/ServerOpts`): `getopt_long` as GNU has it (trusted), the constructor of `run_server` on its results, the choice of `run_server_or_cgi`, and `run`, `join` and the destructor on threads that never end. Findings: `atoi` on large numbers (`number_undefined`); wrong values end the program with status 0, as if all were well (`refused_partial`); unknown options and options without an argument are passed over and the server starts on port 8080 (`mistakes_ignored`); `-sp80` or `--serv` do not make a server, `-o -s` does (`modes_missed`); if a thread cannot be started, the exception of `run` is never seen, as the destructor of the temporary joins the threads that run (`failure_hidden`); a server in the background can never be destroyed (`never_destroyed`). Not modelled: `listen` itself (C78), `strtod`, a second use of `getopt` in one program.
- C85 (`Verif/SharedPtr`): `shared_ptr`, `weak_ptr` and `enable_shared_from_this` as a machine of objects, control blocks with two counters, and handles that are variables or members of objects; threads interleave at every step on a counter. The standard library's classes that they derive from are trusted to keep the counters as the standard says. Findings: circles of shared pointers are never freed (`circles_leak`), a pointer taken over twice is destroyed twice (`taken_twice`), both as in the standard. `bad_weak_ptr` of pfi is not a `std::bad_weak_ptr`, so that handlers for the latter do not see it. Not modelled: exceptions for want of memory, data races on one handle, the stack that long chains need when they are destroyed.
- C86 (JSON documents sharing values, `Verif.JsonDoc`): memory is a list of nodes, programs are lists of statements over numbered `json`
  variables; `Shows` is the tree at an address, `Reach` being part of it. Proved by invariants over statements (addresses valid, parts
  reached from a set of variables closed, no endless way down). Not modelled: destruction (C85), references kept across statements,
  `merge_with` with a user's function. Findings: a lookup by name through a non-const handle inserts a null member even when the whole
  expression throws (`x["new"]["b"]`, `failed_lookup_writes`); array subscripts are unchecked (`lookup_fails`); `x.add(x)` compiles and
  makes printing, cloning and comparing recurse without end (`self_add`, `loop_never_prints`) and the value is never freed (C85,
  `circles_leak`); `merge` shares the members of both operands, so editing the result edits them (`merge_shares`); `json x = 0;`
  compiles, through the converting constructor from `json_value*`, to a handle whose first use is a null dereference (`zero_undefined`).
- **C87 (Double, Duration).** `Verif/Double` models IEEE 754 numbers exactly, as rational numbers with rounding to nearest, ties to even, for any precision; it is shown to round to a nearest number, to keep numbers of the format and to keep the order. `Verif/Duration` uses it for every place where a time in seconds becomes a `timespec` or `timeval`. Findings: (1) `set_timeout` with a positive timeout below a microsecond sets `{0,0}`, which for a socket means *no* timeout, and returns true; servers and clients that check `timeout > 0` first do the same. (2) `mprpc::socket::set_timeout` does not refuse negative timeouts: down to -2147 seconds they mean no timeout, below -2148 seconds the conversion to `int` is undefined. (3) Timeouts of 2^31 seconds and more, infinite ones and NaN are undefined for sockets; `sleep` and timed waits are undefined from 2^63 seconds on, so "forever" cannot be said with an infinite time. (4) `object_stream::read` and `write` subtract clock readings in unsigned arithmetic: when the clock is set back by a microsecond, the next look at it throws a timeout error, whatever the timeout. (5) The end of a wait is computed as a `double` of about 1.7e9 seconds, so it is off by up to 0.95 microseconds; nanosecond timeouts make no sense there.
- C88 (floating point numbers in JSON texts, `Verif/FloatText`): `operator<<` with precision 12 is modelled exactly as `%.12g` (decimal digits of the exact value, nearest, ties to even, notation, dropped zeros), `strtod` as the nearest `double` with `ERANGE` for overflow and for inexact subnormal results. Proof: rounding to decimal digits picks the nearest decimal (`LemmasDec`), the text denotes that decimal (`LemmasText`), and a `double` next to a decimal of 12 digits is rounded to that decimal again, because 10^12 is far below 2^53 (`sci_stable`). The document theorem then follows from C40: the document that comes back has the same text. Assumptions: "C" locale and default stream flags (a stream with `std::fixed` or another locale gives other texts), sign of zero left out (`-0.0` prints `-0`, which comes back as the integer 0).
- Finding (C88): a floating point number that prints without fraction comes back as an integer, so `json(1.0)` becomes `json(1)` and its type changes from `Float` to `Integer` (`whole_becomes_integer`); 123456789012.25 comes back as the integer 123456789012.
- Finding (C88): a document with a subnormal number is printed but its text is refused by the parser, since `strtod` reports `ERANGE` (`subnormal_refused`).
- C89 `RandReal` (`src/math/random.h`): `next_double(a,b)` is documented as `[a,b)` but can return `b` (`real_in_end`: between 1 and 2
  by the largest random number), and `next_double(a)` returns `a` for the smallest normal number (`real_to_tiny`). Neither ever goes
  beyond the end (`real_in`, `real_to`); if `b-a` overflows the result is infinite or NaN (`real_in_overflow`). Seeds taken from the clock
  repeat after 2^32 microseconds, and two generators made within one microsecond yield the same numbers (`clock_seed`).
  The functions of `<cmath>` are parameters; only bounds (`Sane`) are assumed of them.
- C90 `CsvIter` (`src/text/csv.h:179-235`): `csv_iterator` has a copy constructor but no assignment operator; the one the compiler makes
  copies pointers into the buffer of the source, which dangle when the source is destroyed (`assign_dangles`). The copy constructor copies
  the parser's row, not the row of the iterator copied, so a copy of a copy holds another row (`copy_of_copy`), and `*it++` is the wrong row
  if the compiler does not elide the copy on return (`post_increment_copied`). `csv_parser::end` is false at the end of the text until `next` has
  failed (`end_late`). An iterator not at the end is not equal to itself (`equal_iff`).
- **Connecting to databases (C91), `Verif/DbConnect`.** Modelled: the parameters of both `connect` functions on their way to `PQconnectdb` and `mysql_real_connect`, and the handles of both client libraries (`src/database/postgresql/connection.cpp:50-140`, `src/database/mysql/connection.cpp:45-100,176-183`). The grammar of connection strings is specified separately from the documentation of `libpq` (trusted). Findings: the PostgreSQL `connect` neither quotes nor escapes. Plain words arrive (`params_arrive`) and so does anything the caller has quoted (`quoted_arrive`). But an empty host, the natural way to ask for the local server, becomes a host named `port=5432` (`empty_host`); an empty database or user name swallows the setting after it (`empty_swallows`); a password with a space makes the whole text be refused, and backslashes vanish from passwords (`password_lost`). A database name taken from outside can redirect the connection, with user name and password, to any host (`injection`). Handles are right in both: nothing is leaked or closed twice however connecting and reconnecting fail (`pg_handles`, `mysql_handles`).
- C92 (RpcFault): connections with a budget of bytes for each direction, at any value of which they break; the turn of the server's loop is that of
  C54. An induction over sessions shows that every call is explained by at most one run. Findings: an `rpc_error` at the client does not
  tell whether the function ran (`error_after_call`, `error_without_call`); a report of a version mismatch that is cut off is taken for a report of other
  versions (`wrong_version`) or leaves `cver` uninitialised (`undefined_version`), since `gen_exception` checks neither the stream nor its own parsing; a
  function without arguments runs, and its result is returned, without its version having been compared (`version_unchecked`), since `process` uses
  `ia >> req_ver` only as a condition for comparing; a function that throws an `rpc_error` makes its caller wait for ever unless the server has a timeout
  (`throwing_hangs`, `throwing_times_out`).
* Form data: a part with `Content-Disposition: attachment` and no attributes is ignored, since the carriage return stays with the value (`Cgi.Props`).
* Web server: a request with a body in broken chunks and a `Content-Length` is accepted; what could not be read is taken for 0 characters
  (`CgiServer.Props.broken_chunks_accepted`).
* HTTP: the size of a chunk may have a sign and `0x`, which RFC 7230 does not allow (`Http.Props.chunked_prefix`).
- C93 (LexFloat): `lexical_cast` of `float` and `double` (`src/lang/cast.h`), with the streams of libstdc++ in the "C" locale as functions on bytes (trusted: collecting the characters, `strtod` accepting all of them, `%.6g`) and the exact arithmetic of `Verif/Double`. Specified by `Begins` (which number a text begins with), `Nearest`, `Rounded`, `Cut` and `FirstDigit`. Found: a cast of a floating point number to an integer type goes by way of its text, so `lexical_cast<int>(1000000.0)` is 1 and `lexical_cast<int>(0.00001)` is 1, without an exception (`first_digit_only`; `int_of_float` says what comes out for every number); `lexical_cast<double>` of a `float` loses digits although every `float` is a `double` (`widening_changes`); `1cm` is read as 1 and `1em` is refused (`edges`); infinities and NaN have texts that cannot be read (`infinite_refused`). Not modelled: `long double`, the sign of zero.
- C63: the version in the first line may be written with small letters (`version_any_case`).
- **Floating point columns of PostgreSQL (C70), `Verif/PgFloat`.** `lexical_cast<double>` of a column's text is that of C93, put together with the bits of `Verif/Postgres`. Proved: the nearest `double` is read, with the sign of the text also for zero (`column_nearest`, `column_sign`); a `double` given as an argument and shown again comes back unchanged exactly if it is the rounding of a number with ten digits behind the point, and always from 2^19 on (`kept`, `large_kept`). Found: `NaN`, `Infinity` and `-Infinity`, which the server does send, make `fetch_row` throw `bad_cast`, and since the row stays the next one, no later row of the result can be fetched either (`special_blocks`); 1/3 does not come back (`echo`). That the server shows a text for which the same `double` is nearest is assumed (`Shows`).
- **Reading interned tables (C05).** `intern_load_defined`: reading a table writes outside the vector exactly if some id in the stream is negative or not below the number of elements. Nothing else is checked: ids that occur twice give a table in which ids and keys disagree (`intern_load_unchecked`).

- **C94 (PHP clients of `genrpc`).** `GenPhp/Model` follows `tools/genrpc/gen_php.h` (which classes are collected, how they and their members are named, which type objects a constructor makes) and `tools/genrpc/pfi_rpc.php` (how type objects write and read). The server is that of `Rpc/Model`. PHP itself is trusted as modelled: order and keys of arrays, strings of digits and floats as keys, `pack`/`unpack`, and `fread` on a socket, which asks the system at most once. `Stands` relates PHP values to C++ values. Findings, each a theorem: integers of eight bytes (`long`, `int64_t`) are written as nothing, so the call waits forever (`eight_bytes_hang`); `bool`, `char` and streams have no type class, so that one of them anywhere in an interface makes `new …_client` end with an error (`missing_type_fatal`); `float` is written with eight bytes (`single_precision_wrong`); an empty string is read as `FALSE` (`empty_string_false`); a string that comes in three pieces loses the last one, and strings over 16384 bytes never come whole (`split_string_cut`, `long_string_cut`); float keys merge and class keys disappear (`float_keys_merge`, `class_keys_dropped`); the version is always 1, so other servers refuse every call (`other_version_refused`); two classes with the same name in two interfaces become one (`same_name_mixed`). Not followed: PHP's conversions after its warnings (`untyped`), exceptions thrown by `pfsockopen`, persistent connections shared between requests.
- **C95, Haskell clients made by `genrpc`** (`Verif/GenHs`). The library `PFIRPC.hs` and the program that
  `gen_hs.h` writes are modelled as functions on values, the compiler as the checks that can fail. Proved:
  values that are sent and received (`sends_partial`, `receives_partial`), interfaces (`client_partial`) and whole
  calls (`call_partial`). Findings: `decode` of an `Int` puts four bytes into 64 bits without a sign, so that
  negative results come back as that number plus 2^32 (`negative_read_wrong`); `Int` is used for integers of all sizes,
  so that those with one or two bytes shift everything behind them and those with eight hang
  (`short_integers_wrong`, `eight_bytes_hang`); a `float` is sent with eight bytes (`single_precision_wrong`);
  characters are cut to their lowest byte (`wide_characters_cut`); `realToFrac` without optimisation turns NaN into
  minus infinity and −0 into 0 (`special_doubles_changed`); `Bool` has no instance of `RPCType`, `runtime_error` is
  made but not thrown for other types, and classes derive no `Ord`, so that one such type makes the whole program
  wrong (`missing_type_fatal`); so do classes without members and clashing names (`bad_names_fatal`);
  only `ref[0]` is used (`only_first_interface`); the version is always 1 (`other_version_refused`).
- **C96, `serialization::stream` and temporary files** (`Verif/TmpStream`). The objects, a directory, the open
  files and the positions of streams are modelled; the escape code is that of C22. Proved by invariants over all
  histories: streams stay open as long as an object holds them and no longer (`never_dangling`,
  `no_descriptor_leak`, `stream_survives`), no files are left without assignments (`no_file_left_partial`), names
  are right without copies (`own_name_partial`, `others_files_stay_partial`), and what is sent arrives
  (`send_receive`). Findings: the class has no copy constructor and assignment of its own, so that an assignment
  leaves a file in `/tmp` (`assignment_leaves_file`) and a copy removes the file name while the other object is in use, and
  later any file with that name (`copy_removes_file_of_other`); when `mkstemp` fails `get` dereferences a null
  pointer and the destructor removes the file named as the template is then (`failed_file`); `serialize` moves the
  position of a stream that may be `const`, so that a second one sends nothing (`second_send_empty`), and a file
  that was just written is sent as empty (`written_file_not_sent`); receiving neither truncates a file nor clears a
  `stringstream` (`old_contents_stay`, `strings_pile_up`), and `seekg(0)` does nothing if the failbit is set
  (`drained_file_stays_at_end`).
- C97, `Verif/Genrpc`: the command `genrpc` itself (arguments, marks in the installed templates, temporary files, the compiler as a parameter,
  the generator's `main`, the names of the files that are written). Proved by computing the shell's words of the command and the text of
  the filled template for all names. Findings: for a language that is listed but not implemented (ocaml, java, ruby, python, perl) the handler
  of the exception removes the file named like the header without its suffix (`deletes_program`), which is the header itself if it has none
  (`deletes_signature`); the first character of the whole path becomes a capital for Haskell, so `lib/a.h` is written to `Lib/a.hs`, or
  silently not at all (`haskell_directory`); the suffix is removed wherever it occurs first (`suffix_anywhere`); when the compiler fails the
  file `genrpcexe......` stays (`compile_error`, `generator_error`); the exit status is 0 for all failures but a missing language (`status`);
  any argument `--x` is taken for the language and the options are chosen by position (`last_language`, `last_signature`,
  `options_by_position`); options are not quoted for the shell (`shell_interprets`, `option_split`); a header without interfaces is undefined
  for Haskell (`no_interface`), and so is a directory that is not writable (`unwritable_undefined`). Not modelled: `PFIRPC.hs`, which Haskell
  clients import, is not in the list of files to install (`/repo/tools/genrpc/wscript:15-21`), and the templates are looked for in a
  fixed place (`/repo/tools/genrpc/main.cpp:17`).
- **C75 with `double` and `float`.** `MathVec/Num` puts the exact IEEE 754 numbers of `Verif/Double` into the twelve classes; `PropsNum` says what is left of the laws. The bound for the inner product is the usual one, ((1+u)^n - 1) times the sum of |x_i y_i|, and 2n(1+u)^n times half the smallest number for underflow; it is proved by induction on the components, for every result that is finite. The sign of zero is left out. `sqrt` stays a parameter.
- **C98 (JSON errors and nesting), `text/json/parser.h`, `text/json/parser.cpp`, `lang/exception.h`.** `Verif/JsonPos` is the parser of `Verif/Json` written once more, statement by statement in a state monad that keeps line, column, callbacks and the room left for calls, and proved to refine the first model (`same_parser`). Proved: every parse error has the line and column of the first character not read, and a message that fits what is there (`error_described`, with the message texts specified by the relation `Fits`); what follows the characters looked at does not matter (`error_local`, `value_local`); `end_of_data` only at the end; callbacks before an exception begin those of some value; a value is parsed if and only if its nesting is at most the number of calls for which there is stack (`room_needed`). Not modelled: `int` overflow of line and column (texts of 2^31 characters), the size of a stack frame (the room is counted in calls of `parse_impl`). Found: (1) no limit on nesting, so for every stack a text of opening brackets overflows it (`nesting_overflows`); (2) a text cut behind white space after a number is reported as `',' is required but got ' '` instead of as incomplete, because `ss` tests `it != end` while a character is still read ahead (`cut_behind_space`): a caller that waits for more data on `end_of_data` rejects it; (3) messages of `match` and `parse_hex` show the character modulo 256, so that U+013A appears as the colon that is said to be missing (`wrong_character_shown`); (4) a zero byte cuts the text of the exception (`what_cut`).
- **C99 (cost of reading an archive), `data/serialization/*.h`.** `Verif/Serial/Cost.lean` follows the loops of `Verif.Serial.read` and counts the calls of `istream::read`. Proved by induction over the type: reading that succeeds needs at most one call for each byte taken, into any object (`success_linear`); reading any bytes into a new object ends after as many calls as there are bytes and `excess t` more (`any_bytes_bounded`). Found: no loop looks at the archive, so four bytes that announce n elements make n elements, or n turns for maps and sets, for every n below 2^32 and every type (`four_bytes_fill`, `four_bytes_string`, `four_bytes_turns`, `not_linear`). `pfi::network::rpc` servers read the arguments of any client this way.
- **Files of sparse matrices (C100), `Verif/SparseFile`.** Modelled: `open`, `close`, the destructor, `append_row` and `row_num` of `sparse_matrix_writer`, `sparse_matrix_reader`, `decoder::attach` for files, and `matrix_transpose` with its files, on a disk with permissions and a largest size of files; the contents are those of `Verif/Sparse`. Not modelled: two writers at once, what is in a file while it is being written, copies of a reader (two owners of the same memory). Findings: the destructor of the writer does not write the table, so a program that relies on it loses the matrix, or makes one with the old table and the new data, which is read without complaint (`destroyed_without_table`, `old_table_new_data`); nothing tells that the disk is full or that the table cannot be written (`full_disk_unreported`, `table_unwritten`); `row_num` of a closed writer dereferences a null pointer (`closed_row_num`); a reader whose data file is missing reports success (`no_data_unreported`), and `matrix_transpose` then writes an empty matrix and reports success (`no_data_transposed`); `matrix_transpose` that fails has already emptied its target (`failed_empties`); matrices called `m` and `m.offset` share a file (`names_clash`). Transposing onto itself works (`transposed`).

- **C101** (`Verif/UText`): `chars_to_uchar(in)` (ustring.h:218-223, deprecated) has no end to stop at. On terminated text it is safe, but at the terminator it steps behind it (`no_end_passes`); on text that ends inside a character it reads behind the memory (`no_end_runs_out`). `in >> us` assigns `us` also when nothing was read, so the old value is lost (`end_clears`); `out << us` and `in >> us` are inverse for words only (`not_come_back`). `string_to_uchar(const char*)` reads `p[6]` before it tests `n < 6`, which is harmless for a terminated string (`first_char`).
- **C49, C77** (`Verif/SockStream/Large.lean`): `stream_socket::write` takes an `int` (socket.cpp:241), its callers have 64 bits. A length with lower 32 bits of 2^31 or more arrives negative (undefined, `large_undefined`); of 2^32 + m bytes m are sent. A stream notices (`large_stream_bad`), `puts` does not: it compares with `(int)str.length()`, the same wrong number (`large_puts_unreported`).
- **C48**: threads that miss the same host at the same time leave an element behind in `access_time` each time, which deleting the host does not remove: the index grows without bound while the cache stays empty (`index_leaks`).
- C55: 33 bytes `0x91` (arrays of one element in one another) bring an MPRPC server down: the unpacker refuses nesting beyond 32 levels with an exception nobody catches (`nested_crashes`). The code of an error is cut to 32 bits (`message.h:162-168`), so the error 2^32 + 1 of a foreign server reaches the caller as `method_not_found` (`error_codes`).
- C78, C49: `stream_socket` and `server_socket` have a destructor but the copy constructor of the compiler. Destroying an original and its copy makes a system call on a wrong descriptor for every kernel and schedule (`copy_harms`), may close the connection of a third socket (`copy_closes_another`), and sends the bytes that were in the output buffer twice (`copy_sends_twice`).

## C102: reading JSON into an object that has a value

`JsonCast/Into.lean` models `from_json(js, v)` (`cast.h:341-569`) with the contents of `v` after an exception; uninitialised temporaries have arbitrary contents. Proved by induction over the types: success exactly when `json_cast` succeeds, with the same value (`into_fresh`); `v` unchanged after a failure unless it is a class (`into_failed_kept_partial`); exactly what is left in a class (`into_failed_class`).

- C102: a class is read in place, member by member. When a later member fails, the earlier ones keep their new values: the object is a mix of old and new (`into_not_atomic`). Vectors and maps of classes are safe, as they are read into a temporary.

### C103 — memory of decoders (`Verif/CodeFile`)

Modelled: `decoder::attach` (three overloads), `detach`, the destructor, `get_file_size`, and the copy constructor and assignment that the compiler writes. An array has elements that may not be
initialised. Undefined behaviour (`none`): freeing twice, reading freed or uninitialised memory, writing in front of an array. The position in the memory is in `Verif/Code`.

Findings:
- `decoder` has a destructor that frees its array but no copy constructor: a copy frees it again, and reads freed memory before that (`copy_frees_twice`, `copy_reads_freed`); assigning to a decoder
  leaks its array (`assign_leaks`).
- `attach(istream&, int)` does not look at what `read` did: for a stream that ends early it returns 0 and leaves bytes that were never written (`short_not_reported`).
- `attach(string)` passes the result of `get_file_size` on without looking at it: when the file is removed between the two calls the size is -1, and a zero is written to `bytes[-1]`
  (`vanished_file_undefined`). The size is cut to `int`: of a file of 4 GiB and 3 bytes three bytes are read, and the call returns 0 (`large_file_cut`); files of 2 to 4 GiB make it throw, and the
  largest of these overwrite memory (`large_file_refused`).
- **The sine table of MD5 (C19), `Verif/Md5/{Table,TableSpec,TableLemmas,PropsTable}`.** Modelled: the loop of `md5sum::calc` that fills the table (`abs`, the product in `double`, the conversion to `unsigned int`, undefined out of range). The sine of the C library is a parameter; assumed of it is only that for the whole numbers 0 to 64 it is off the real sine by at most 2^-40. `Real.sin` is Mathlib's; the sines of 1 to 64 are enclosed by the series at 1 and the addition theorems in fixed point arithmetic with 256 bits, evaluated by the kernel. Finding, not a theorem: the table is a `static` array which every call fills again without a lock (`/repo/src/data/digest/md5.cpp:74-79`), so two threads that compute digests at the same time have a data race, though both write the same values; the header of the mutex is included but not used.
- **The Fourier transform on `double` (C104), `Verif/Fft/{Float,FloatSpec,FloatLemmas,PropsFloat}`.** The loops of `Verif/Fft/Model` are now defined for any type with `+`, `-` and `*`; here they run on pairs of the numbers of `Verif/Double`, each operation rounded to nearest by itself (no fused operations, no wider registers). The angle is computed as in the code (`atan(1.0)*4`, `2.0*pi/n*flip`, times `irev`), with `atan`, `cos` and `sin` as parameters that are off by at most 2^-52 (`cos` and `sin` for angles up to 4). Proof: the transform is the recursion `G` for any operations (`fft_G`); along it, computed and exact values stay near (`near_G`), each stage doubling the magnitude and adding a share of 2^-43 of it. Not modelled: `std::complex<float>` and `long double`, signed zeros.
- **Variables of rational numbers (C105), `Verif/Ratio/{Assign,AssignSpec,AssignLemmas,PropsAssign}`.** The assigning operators of `ratio<T>` on a memory of variables, each statement a change of the memory that later reads see; programs are refined to programs on variables with rational numbers. Found: `a /= a` sets `a.num_` to the sign and then divides `b.num_`, which is the same member, by the old numerator, so 2/3 divided by itself is 1/0 (`divided_by_itself`, for all numbers); the other three are right when both operands are one variable, because `num_` is not read again. `a / a` is right: the left operand is a copy.
- **References into the cache (C106), `Verif/LruRef/{Model,Spec,Lemmas,Props}`.** The cache of `Verif/Lru/Model` with addresses of `std::map` nodes as values, a memory in which the addresses of erased nodes hold nothing, and reference variables of the program; programs are refined to an abstract cache with names for its values. Simplified: a new node gets an address never used before; keys are values, not references. Found: `set` takes its value by reference and evicts before it copies it (`/repo/src/data/lru.h:74-83`), so in a cache of capacity 1 `c.set(k, c.get(j))` always reads a destroyed value (`copy_capacity_one`); from capacity 2 on it is right, because `get` has just made `j` the most recently used (`copy_partial`).
- **Two dimensions (C36, C107, C108), `Verif/Fft/{Float,Float2Lemmas,PropsFloat2,Refuse,RefuseLemmas,PropsRefuse}`.** The two-dimensional transforms are two layers of the recursion `G` for any operations (`G2`), so that the bounds of C104 apply twice; in exact arithmetic `ifft2d` undoes `fft2d`. `Refuse` is the model once more with the contents of the array when the call throws (`refuse_same` ties it to the first). Found: `fft2d` on a linear array checks that the number of rows is a power of two only when it transforms the first column (`/repo/src/math/fft.h:132-133`), after all rows have been transformed in place, so a caller who catches `length_error` has a half transformed array (`late_refusal`). The matrix version checks its height first, though it checks it twice and never the width (`/repo/src/math/fft.h:144-146`); a bad width is refused by the transform of the first row, before anything changes.
- **Types with streams (C79).** `Reflect/Streams.lean` extends the forms on the wire to types that contain streams, in vectors, values of maps and members of classes: such values arrive with what was left to read in each stream, in a new file at its beginning (`streams_arrive`), so that equal descriptions are enough for peers that exchange files (`peers_understand_streams_partial`). The reader of a stream ends after at most two iterations more than there are bytes, or never (`never_ends`); the model counts the latter as undefined. Not modelled here: a value two of whose streams are copies of each other and share one file, of which the second is then sent as empty (C96, `second_send_empty`).

## C109: clients and threads of an RPC server (`Verif/RpcPool`)

The threads of `rpc_server::process` (`/repo/src/network/rpc/base.cpp:168-231`) as a transition
system: any number of threads, connections waiting in the system in the order in
which they came, and clients that send some calls and then close their
connection or stay silent. A step is the test of the loop, an `accept`, one call, the end of a
connection, a new client, or `stop`. Proved for all histories by an invariant (each open connection is in
one place; what was run of it and what is still to come make up what the client has) and a measure that every step of
the threads makes smaller.

Findings:

- A thread belongs to a connection until it ends, and `rpc_client` keeps its
  connection from call to call until it is destroyed. A server with n threads and no timeout thus
  serves n client objects; the next one waits for ever in its first call
  (in `get_connection`, for the answer to the first ping), without an error (`locked_out`). No timeout is what
  `rpc_server` has unless it is given one (`/repo/src/network/rpc/base.h:68`), and
  `rpc_client` has none and no way to set one.
- One such silent client also keeps the server from ending after `stop`
  (`held_up`): its thread is not in `accept`, so the message that `stop` sends does not reach
  it. With a timeout of the server, both are gone (`all_served_partial`, `stop_ends_partial`).

- A timeout ends silent connections only. A client that goes on sending keeps its thread for as long as it likes, and as many of them as there are threads keep all others waiting
  (`kept_waiting`): threads belong to connections, not to requests.

Clients that come later do not matter: `turn_comes_partial` bounds the steps that the threads can make before a waiting
client is taken by what is ahead of it. The loops of the MessagePack-RPC server (`/repo/src/network/mprpc/rpc_server.cpp:137-176`) and of the web server
(`/repo/src/network/cgi/server.cpp:236-283`) give a thread to a connection in the same way; there is no separate model of them here.

Not modelled here: the bytes (C54), broken connections (C80), the mutex of the state (C56), the limit of the system on waiting
connections, failing `accept` while the server runs.

## C110: functions that call their own server (`Verif/RpcNest`)

Who waits for whom when functions of an RPC server use an `rpc_client` of the same server: a client outside has
a stack of threads that wait for answers on its behalf, and one call that waits for a thread or runs. Threads are
counted, not named. A call is the tree of the calls that its function makes.
The proof that all are answered bounds the waiting threads of a client by the height of its tree, and the steps by its size.

Findings:

- n clients at once, each with a function that makes one call to the same server, can lock a server with n threads for ever
  (`deadlock` with n times 1): all threads wait for answers that no thread is left to give.
- One client is enough if its calls go deeper than there are threads (`too_deep_never`); in particular no function of a server with
  one thread can call it.
- The server's timeout does not end this: it is set on the connections that the server has accepted
  (`/repo/src/network/rpc/base.cpp:174-178`), while the threads wait as clients, which have no timeout.

Not modelled here: results, functions that keep one client for several calls (its connection then keeps a second thread between calls, which
makes it worse).

Several servers that call each other (`ModelMany.lean`): the same with a number of threads for each server. All are answered if each server has more
threads than calls to it may wait for calls inside of them, for all clients together (`Many.Props.all_answered_partial`).

- Two servers whose functions call each other once can lock each other up, whatever number of threads they have (`locked_up`): it takes
  as many clients of each as it has threads. Nothing in the library detects this, and no one is ever answered again.
- A call that comes back to a server more often than it has threads, through any number of other servers, is never answered (`Many.Props.too_deep_never`).

## C111: the web server with several threads (`Verif/CgiServer/*Pool.lean`)

Threads with a copy of the program each, on top of the model of one thread (C65), and histories of which thread takes which connection and when it is done.
By induction over the history, what a thread has sent is what `serve` sends for the connections that it took, and its copy is in the state after them.

Finding:

- `run` copies the program once for each thread (`/repo/src/network/cgi/server.cpp:167-169`), so what a program keeps in its object is kept per thread. With two threads or more,
  any client may be answered as though no one had come before (`forgotten`): a program that counts its visitors tells two of them that they are the first (`counter_wrong`). A session kept
  in the object is there or not, as the kernel chooses the thread.

Not modelled: data that programs share by globals or files, threads that cannot be started, a program whose class has no `clone` (`run` throws then,
`/repo/src/network/cgi/base.h:49-51`).

## C112: MessagePack-RPC calls within calls, with timeouts (`Verif/MpNest`)

As C110, for MessagePack-RPC, whose clients have a timeout: anyone who waits may give up at any time, and what was asked then goes on by itself. A measure over all calls, those given up
included, goes down with each event, so a state is reached where nothing more can happen; there everyone has an answer or has given up and all threads are free (`all_end`).
The lock-ups of C110 thus end with timeouts. Calls not begun yet are counted likewise, which gives `at_most_once` and `exactly_once_partial`. Histories in which nobody gives up are those of C110 (`step_forget`), so with
enough threads nobody has to (`enough_threads`).

Findings:

- A function that gives up on a call ends with `rpc_timeout_error`, which `process_request` drops without an answer (`/repo/src/network/mprpc/rpc_server.cpp:198`). So one timeout makes every caller
  further out wait for its own timeout too, and each keeps its thread as long (`failure_spreads`, `thrown_unanswered`), unless a function catches the exception itself (`caught_answered`).
- A call given up is not withdrawn: the server may still begin it, when no one waits for it any more (`runs_for_nobody`). A client who tries again after
  timeouts may have the function run once for each try (`runs_again`).

Not modelled: results, clients that keep a connection over several calls, a timeout of the server, the time that passes.
