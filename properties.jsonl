{"id": "C01", "title": "Base64 round trip", "statement": "base64_decode(base64_encode(s)) returns s for every byte string s, and base64_encode(s) is padded text of length 4*ceil(len/3) over the standard alphabet.", "quantifier": "all byte strings of any length and content", "why_tests_cant": "The space of strings is infinite and the interesting cases depend on length mod 3 and on every bit of every byte.", "anchors": ["src/data/encoding/base64.cpp: base64_encode, base64_decode, toint"]}
{"id": "C02", "title": "Base64 decoding rejects malformed text", "statement": "base64_decode throws on every string that is not a well-formed padded base64 text (wrong length, foreign character, misplaced '='), and otherwise never reads outside the input.", "quantifier": "all byte strings given to base64_decode", "why_tests_cant": "Rejection is a universal statement over all malformed inputs; a test can only show a few rejected examples.", "anchors": ["src/data/encoding/base64.cpp: base64_decode"]}
{"id": "C03", "title": "LRU cache follows least-recently-used policy", "statement": "After any sequence of set/get/touch/remove/clear/has/operator[] calls on an lru of capacity n>=1 the cache holds exactly the entries a recency list of length at most n would hold: lookups return the stored value, the size never exceeds n, each eviction removes the least recently used key, and a set of a key that is present changes nothing.", "quantifier": "all operation sequences, keys, values and capacities n >= 1", "why_tests_cant": "The state space of histories is unbounded; eviction order depends on the whole history.", "anchors": ["src/data/lru.h: lru::set, lru::get, lru::touch, lru::remove, lru::clear, lru::has, lru::operator[]"]}
{"id": "C04", "title": "Fenwick tree answers range sums", "statement": "After any sequence of increase(k, n) with valid k, query(a, b) equals the sum of all increments made at positions a..b.", "quantifier": "all tree sizes, all histories of increments, all valid ranges", "why_tests_cant": "Correctness relies on the bit structure of indices and must hold for every size and history.", "anchors": ["src/data/fenwick_tree.h: fenwick_tree::increase, fenwick_tree::query"]}
{"id": "C05", "title": "Interning is a stable bijection", "statement": "key2id gives every distinct key a distinct id, ids are consecutive from 0, an id once assigned never changes, id2key inverts key2id, and lookups with gen=false never change the table.", "quantifier": "all sequences of key2id/key2id_nogen/clear calls over any key type", "why_tests_cant": "Stability is a property of the whole history, not of one call.", "anchors": ["src/data/intern.h: intern::key2id, intern::key2id_nogen, intern::id2key, intern::exist_key, intern::exist_id, intern::size"]}
{"id": "C06", "title": "KMP search finds the first occurrence", "statement": "kmp::find(text) returns the smallest position at which the (non-empty) pattern occurs in the text, and npos exactly when it does not occur.", "quantifier": "all patterns of length >= 1 and all texts", "why_tests_cant": "The failure table has pathological self-overlapping patterns that no finite sample covers.", "anchors": ["src/data/string/kmp.h: kmp::kmp, kmp::find"]}
{"id": "C07", "title": "edit_distance is the Levenshtein distance", "statement": "edit_distance(a,b) is the least number of single-character insertions, deletions and substitutions turning a into b.", "quantifier": "all pairs of strings over any alphabet", "why_tests_cant": "Minimality quantifies over all edit scripts of all strings.", "anchors": ["src/data/string/algorithm.h: edit_distance"]}
{"id": "C08", "title": "longest_common_subsequence is optimal", "statement": "longest_common_subsequence(a,b) is the length of some common subsequence of a and b, and no common subsequence is longer.", "quantifier": "all pairs of sequences", "why_tests_cant": "Optimality quantifies over exponentially many subsequences of unbounded inputs.", "anchors": ["src/data/string/algorithm.h: longest_common_subsequence"]}
{"id": "C09", "title": "longest_increasing_subsequence is optimal", "statement": "longest_increasing_subsequence(s) is the length of the longest strictly increasing subsequence of s.", "quantifier": "all sequences of int values (for wider element types it fails; see the finding)", "why_tests_cant": "Optimality quantifies over exponentially many subsequences.", "anchors": ["src/data/string/algorithm.h: longest_increasing_subsequence"]}
{"id": "C10", "title": "Aho-Corasick reports exactly the occurrences", "statement": "search reports (index of a word, end position) exactly when that word of the dictionary ends there in the text: no occurrence is missed, none is invented, none is reported twice. Building the automaton and searching end and never leave the node array.", "quantifier": "all dictionaries of non-empty words and all texts", "why_tests_cant": "Failure links interact across all dictionary words, and the double array depends on all of them; soundness and completeness must hold for all inputs.", "anchors": ["src/data/string/aho_corasick.cpp: aho_corasick::aho_corasick, construct, search", "src/data/string/aho_corasick.h: aho_corasick, node"]}
{"id": "C11", "title": "split, join and replace agree", "statement": "Joining the pieces of split(s, c) with c gives back s up to the documented treatment of empty pieces, no piece contains the separator, and replace substitutes every non-overlapping occurrence left to right and nothing else.", "quantifier": "all strings and separators", "why_tests_cant": "Separator positions (leading, trailing, doubled, overlapping) combine without bound.", "anchors": ["src/data/string/utility.h: split, join, replace"]}
{"id": "C12", "title": "strip, starts_with and ends_with", "statement": "strip returns the maximal inner substring with no whitespace at either end, lstrip/rstrip its one-sided versions; starts_with/ends_with hold exactly for prefixes/suffixes.", "quantifier": "all strings", "why_tests_cant": "All-whitespace, empty and one-character strings of every content must be covered simultaneously.", "anchors": ["src/data/string/utility.h: strip, lstrip, rstrip, starts_with, ends_with"]}
{"id": "C13", "title": "UTF-8 encode/decode round trip", "statement": "For every sequence of Unicode scalar values, string_to_ustring(ustring_to_string(u)) = u, and for every well-formed UTF-8 string the converse round trip is the identity.", "quantifier": "all sequences of scalar values / all well-formed byte strings", "why_tests_cant": "There are more than a million scalar values in unbounded sequences and boundaries at each encoded length.", "anchors": ["src/data/string/ustring.h: chars_to_uchar_impl, uchar_to_chars", "src/data/string/ustring.cpp: string_to_ustring, ustring_to_string"]}
{"id": "C14", "title": "check_utf8 accepts exactly well-formed UTF-8", "statement": "check_utf8(s) is true exactly when s is well-formed UTF-8 in the sense of RFC 3629 (no overlong forms, no surrogates, nothing above U+10FFFF, no truncated sequence).", "quantifier": "all byte strings", "why_tests_cant": "Security-relevant exactness over all byte strings.", "anchors": ["src/data/string/ustring.cpp: check_utf8", "src/data/string/ustring.h: chars_to_uchar_impl"]}
{"id": "C15", "title": "sanitize_utf8 output is clean", "statement": "sanitize_utf8 returns well-formed UTF-8 without forbidden control characters for every input, is idempotent, and leaves already clean text unchanged.", "quantifier": "all byte strings", "why_tests_cant": "The function exists to handle arbitrary hostile input.", "anchors": ["src/data/string/ustring.cpp: sanitize_utf8"]}
{"id": "C16", "title": "Width conversion laws", "statement": "zenkaku_latin_to_basic_latin inverts basic_latin_to_zenkaku_latin on ASCII text and both leave other characters alone; hankaku_to_zenkaku leaves no half-width katakana and composes voiced marks with the character they modify.", "quantifier": "all strings of code points", "why_tests_cant": "Tables and pairs of characters combine in unbounded strings.", "anchors": ["src/data/string/ustring.cpp: zenkaku_latin_to_basic_latin, basic_latin_to_zenkaku_latin, hankaku_to_zenkaku"]}
{"id": "C17", "title": "Bit codes round trip", "statement": "Any sequence of values written with the encoder (word_with_length, gamma, delta, rice, prefix code, byte) and flushed is read back unchanged by the decoder issuing the same sequence of reads.", "quantifier": "all sequences of mixed code operations and values in range", "why_tests_cant": "Bit alignment depends on the whole history of writes.", "anchors": ["src/data/code/code.cpp: encoder, decoder"]}
{"id": "C18", "title": "Config files read back what was written", "statement": "For each section/key, the value returned is the last value assigned in the file, comments, blanks and surrounding quotes being ignored, and a malformed line is reported as a parse error with its line number.", "quantifier": "all files (any sequence of lines)", "why_tests_cant": "Line interactions (overrides, sections, comments) are unbounded.", "anchors": ["src/data/config_file.cpp: config_file::init, trim"]}
{"id": "C19", "title": "MD5 computes RFC 1321", "statement": "md5sum(s) feeds the compression function exactly the RFC 1321 padded message and chains the blocks in order, for every input length.", "quantifier": "all byte strings", "why_tests_cant": "Padding boundaries (55/56/63/64 mod 64) and arbitrary lengths.", "anchors": ["src/data/digest/md5.h: itr_buf", "src/data/digest/md5.cpp: md5sum impl"]}
{"id": "C20", "title": "Binary serialization round trip", "statement": "Writing any value (integers, strings, vectors, lists, deques, maps, sets, unordered maps and sets, pairs, arrays, nested arbitrarily) to a binary_oarchive and reading it back with a binary_iarchive yields an equal value and leaves exactly the following bytes unread.", "quantifier": "all serializable values of all nested types, any trailing data", "why_tests_cant": "Types nest without bound and each value is arbitrary.", "anchors": ["src/data/serialization/base.h: binary_iarchive, binary_oarchive", "src/data/serialization/vector.h, string.h, map.h, set.h, pair.h, list.h, deque.h, unordered_map.h"]}
{"id": "C21", "title": "Truncated archives are detected", "statement": "Reading a value from a strict prefix of its serialized form leaves the archive in a failed state (never reports success).", "quantifier": "all values and all cut points", "why_tests_cant": "Every crash/cut point of every value must be covered.", "anchors": ["src/data/serialization/base.h: binary_iarchive::read"]}
{"id": "C22", "title": "Stream embedding escapes round trip", "statement": "Bytes written through the stream-embedding archive wrapper are recovered exactly, and the end marker is never confused with data.", "quantifier": "all byte strings including those full of 0xff", "why_tests_cant": "Escaping must work for all contents.", "anchors": ["src/data/serialization/iostream.h"]}
{"id": "C23", "title": "Sparse matrix rows survive", "statement": "Rows appended to a sparse matrix writer are returned unchanged, in order, by the reader, and transposition is correct: entry (i,j)=v of the input iff (j,i)=v of the output.", "quantifier": "all sequences of sparse rows with increasing column ids", "why_tests_cant": "Row contents, gaps and byte alignment combine without bound.", "anchors": ["src/data/sparse_matrix/sparse_matrix.cpp: sparse_matrix_writer::append_row, sparse_matrix_reader::get_row, matrix_transpose"]}
{"id": "C24", "title": "Mutex gives mutual exclusion", "statement": "At any time at most one thread holds a mutex; a recursive mutex is released exactly when the holder has unlocked as often as it locked; unlock by a non-holder fails and changes nothing.", "quantifier": "all interleavings of lock/unlock by any number of threads", "why_tests_cant": "Quantifies over all schedules.", "anchors": ["src/concurrent/mutex.cpp: mutex_impl lock/unlock", "src/concurrent/lock.h: scoped_lock"]}
{"id": "C25", "title": "Condition wait releases and restores the lock", "statement": "condition::wait gives up the mutex while waiting whatever its recursion depth and returns with the same holder and depth as before; no other thread's ownership is disturbed.", "quantifier": "all schedules, recursion depths and spurious wake-ups", "why_tests_cant": "Quantifies over all schedules.", "anchors": ["src/concurrent/condition.cpp: condition::wait"]}
{"id": "C26", "title": "MVar holds at most one value and loses none", "statement": "Under every interleaving of put/take/read/try_put/try_take/swap, each value put is taken at most once, takes return values in put order, and put never overwrites a full mvar.", "quantifier": "all schedules of any number of threads", "why_tests_cant": "Quantifies over all schedules.", "anchors": ["src/concurrent/mvar.h: mvar"]}
{"id": "C27", "title": "Bounded buffer is a bounded FIFO", "statement": "Under every interleaving of push/pop/timed push/timed pop/clear a pcbuf never holds more than its capacity, and pops return pushed values in order without loss or duplication.", "quantifier": "all schedules, capacities >= 1", "why_tests_cant": "Quantifies over all schedules.", "anchors": ["src/concurrent/pcbuf.h: pcbuf"]}
{"id": "C28", "title": "Channels broadcast in order", "statement": "Each chan end reads every value written to any end of the group after it was duplicated, in write order, each exactly once (unget pushes back at the front).", "quantifier": "all histories of write/read/unget/dup", "why_tests_cant": "Quantifies over histories and sharing topologies.", "anchors": ["src/concurrent/chan.h: chan"]}
{"id": "C29", "title": "Quantity semaphore conserves units", "statement": "wait(q) takes exactly q units and signal(q) returns exactly q units; the number available is initial + signalled - waited and never negative.", "quantifier": "all schedules and quantities", "why_tests_cant": "Quantifies over schedules and amounts.", "anchors": ["src/concurrent/qsem.h: qsem"]}
{"id": "C30", "title": "Reader/writer lock results are truthful", "statement": "read_lock/write_lock (blocking, try or timed) return true exactly when the lock was acquired; no reader coexists with a writer and no two writers coexist.", "quantifier": "all schedules and timeouts", "why_tests_cant": "Quantifies over schedules.", "anchors": ["src/concurrent/rwmutex.cpp: rw_mutex", "src/concurrent/rwmutex.h: scoped_rwlock"]}
{"id": "C31", "title": "Thread object lifecycle", "statement": "start succeeds exactly when the thread is not running, join/detach succeed exactly once per successful start, and no operation is issued on a dead native thread handle.", "quantifier": "all sequences of start/join/detach/destroy", "why_tests_cant": "Quantifies over histories.", "anchors": ["src/concurrent/thread.cpp: thread::start, join, detach"]}
{"id": "C32", "title": "Endianness conversion", "statement": "reverse(v) reverses the bytes of v and is an involution for every type; to_little/to_big store the little-/big-endian representation on both kinds of host, and from_little/from_big invert them, also across hosts of different kinds.", "quantifier": "all values of all widths, both byte orders of the host", "why_tests_cant": "2^64 values, and tests run on one kind of host only.", "anchors": ["src/system/endian_util.h: reverse, to_little, to_big, from_little, from_big", "src/system/endian_util.cpp: reverse, check_is_little"]}
{"id": "C33", "title": "clock_time arithmetic is exact", "statement": "Addition and subtraction of clock_time keep usec in [0,1000000) and agree with integer microsecond arithmetic; comparison agrees with chronological order.", "quantifier": "all normalised times", "why_tests_cant": "Carries occur at boundaries of unbounded values.", "anchors": ["src/system/time_util.h: clock_time"]}
{"id": "C34", "title": "Sampling without replacement", "statement": "sample_without_replacement(r, n, k, res) returns k distinct integers in [0, n) whatever the random numbers are, and every ordered selection is produced by exactly one sequence of draws, so uniform draws give uniform selections.", "quantifier": "all n >= k and all outcomes of the generator", "why_tests_cant": "Quantifies over all random outcomes.", "anchors": ["src/math/random.h: sample_without_replacement, sample_with_replacement"]}
{"id": "C35", "title": "Rational arithmetic is exact and canonical", "statement": "ratio +,-,*,/ agree with rational arithmetic and always produce reduced fractions with positive denominator, so == decides equality of rationals.", "quantifier": "all rationals (in the absence of integer overflow)", "why_tests_cant": "Infinite domain, sign and zero cases.", "anchors": ["src/math/ratio.h: ratio"]}
{"id": "C36", "title": "FFT is the Fourier transform and inverts", "statement": "For every sequence whose length is a power of two, fft computes the discrete Fourier transform, ifft the one with the conjugate root, and ifft after fft gives back the sequence with each element multiplied by the length; any other length is refused with length_error. The two-dimensional versions compute the two-dimensional transform, its inverse after it gives every element times the number of elements, and they refuse input that is not a rectangle.", "quantifier": "all vectors of all power-of-two lengths, over any commutative ring with the needed root of unity, and over the complex numbers", "why_tests_cant": "Quantifies over all sizes and contents; the in-place bit-reversed index arithmetic differs for every length.", "anchors": ["src/math/fft.h: fft", "src/math/fft.h: ifft", "src/math/fft.h: fft2d", "src/math/fft.h: ifft2d"]}
{"id": "C37", "title": "Mersenne Twister recurrence", "statement": "The generator output is exactly the tempered MT19937 recurrence from the seed for every position in the stream; block regeneration boundaries do not disturb it.", "quantifier": "all seeds and positions in the output stream", "why_tests_cant": "Stream is infinite; regeneration happens every 624 outputs.", "anchors": ["src/math/random/mersenne_twister.cpp"]}
{"id": "C38", "title": "CSV parsing recovers the fields", "statement": "Parsing a CSV text made by quoting rows in the RFC 4180 manner returns the rows, and parsing never writes outside its buffer.", "quantifier": "all tables of byte strings without NUL", "why_tests_cant": "Quotes, newlines, commas and buffer-size boundaries combine without bound.", "anchors": ["src/text/csv.h: csv_parser", "src/text/csv.cpp: parse_csv"]}
{"id": "C39", "title": "HTML encoding is safe and faithful", "statement": "html_encode output contains no raw < > \" or bare &, decoding the entities gives back the input, and rendering an element tree is well nested with attribute values and text encoded.", "quantifier": "all strings and element trees", "why_tests_cant": "Injection safety must hold for every input.", "anchors": ["src/text/xhtml.cpp: html_encode, tag_elem::render, text_elem::render"]}
{"id": "C40", "title": "JSON print/parse round trip", "statement": "Parsing the printed form of a JSON value (compact or pretty, escaped or not) yields an equal value.", "quantifier": "all JSON values with integer, string, bool, null, array, object nodes nested arbitrarily", "why_tests_cant": "Unbounded nesting and all strings.", "anchors": ["src/text/json/base.h: json::print, pretty, json_string::print", "src/text/json/parser.cpp: json_parser"]}
{"id": "C41", "title": "JSON strings survive escaping", "statement": "Every well-formed UTF-8 string printed as a JSON string literal parses back to itself, whatever control characters, quotes, or astral characters it has.", "quantifier": "all well-formed UTF-8 strings, both escape modes", "why_tests_cant": "Each code point range has its own escaping rule; strings unbounded.", "anchors": ["src/text/json/base.h: json_string::print", "src/text/json/parser.cpp: parse_string_prim"]}
{"id": "C42", "title": "JSON merge and equality", "statement": "Equality of JSON values is reflexive (NaN aside), symmetric, transitive and independent of the order of members. Merging two objects gives each key once: the right-hand value where there is one (or, with a merge function, the combination of both), else the left-hand value; merge is idempotent and associative, and anything but two objects throws.", "quantifier": "all JSON values of any depth, all merge functions", "why_tests_cant": "Unbounded nesting and all combinations of keys.", "anchors": ["src/text/json/base.h: json_object::merge_with, json_object::merge, json::merge, merge, merge_with, equals, operator=="]}
{"id": "C43", "title": "JSON casts round trip", "statement": "json_cast<T>(to_json(x)) = x for integers in range, doubles, booleans, strings, vectors, maps, optionals and classes nested in any way. The strict cast throws unless every value has the right kind and every member that is not optional is there. The cast with defaults never throws: a value of the wrong kind or a missing member keeps the default, vectors and maps are read over the default's elements.", "quantifier": "all values of all types built from the supported ones, all JSON values, all defaults", "why_tests_cant": "Unbounded nesting of types.", "anchors": ["src/text/json/cast.h: to_json, from_json, from_json_with_default, json_cast, json_cast_with_default, serialize"]}
{"id": "C44", "title": "JSON parser rejects malformed text", "statement": "The parser accepts only texts of the JSON grammar and reports an error for anything else (no crash, no hang).", "quantifier": "all byte strings", "why_tests_cant": "Universal over malformed inputs.", "anchors": ["src/text/json/parser.cpp: json_parser"]}
{"id": "C45", "title": "URI percent-encoding round trip", "statement": "uri_decode(uri_encode(s)) = s for every byte string; uri_encode gives only unreserved characters, plus signs and %XX escapes and escapes nothing unreserved; uri_decode decodes every form encoding, with capital or small digits and with needless escapes.", "quantifier": "all byte strings", "why_tests_cant": "All bytes in all positions.", "anchors": ["src/network/uri.cpp: uri_encode, uri_decode"]}
{"id": "C46", "title": "URI parsing splits correctly", "statement": "A text accepted by the uri class is the concatenation of its scheme, userinfo, host, port, path, query and fragment with the separators of RFC 3986, each component being of the form the RFC demands; a legal reference is accepted and split as the RFC says; parsing always ends and never reads outside the string; printing a parsed reference and parsing it again gives the same components.", "quantifier": "all byte strings; all legal references", "why_tests_cant": "Hostile input; a grammar with many alternatives, in which a wrong alternative can swallow text of another component.", "anchors": ["src/network/uri.cpp: uri::parse, uri::parse_uri, uri::parse_relative_ref, uri::parse_authority, uri::parse_userinfo, uri::parse_host, operator<<", "src/network/uri.h: uri"]}
{"id": "C47", "title": "IPv4 text round trip", "statement": "ipv4_address(a.to_string()) == a for every address; the text is the dotted decimal form and fits the fixed buffer; a text is read as an address exactly if it begins with four numbers from 0 to 255 separated by dots, and as none otherwise; < is a strict total order, the one of the 32-bit numbers.", "quantifier": "all 2^32 addresses, all strings", "why_tests_cant": "2^32 values, 2^64 pairs.", "anchors": ["src/network/ipv4.h: ipv4_address, to_string, operator<, operator==", "src/network/ipv4.cpp: ipv4_address::none"]}
{"id": "C48", "title": "DNS cache is bounded and fresh", "statement": "The cached resolver returns only answers that the real resolver gave for the same host and port, never an answer older than the expiry time, never holds more than max_size entries, evicts the entry that was not used for the longest time, and its table and time index stay consistent under concurrent calls.", "quantifier": "all histories and interleavings of resolve, delete_cache and clear_cache by any number of threads, all clock readings and answers", "why_tests_cant": "Depends on time and concurrency.", "anchors": ["src/network/dns.cpp: cached_dns_resolver::impl::resolve, delete_cache, clear_cache"]}
{"id": "C49", "title": "Socket output buffering preserves the byte stream", "statement": "On one connection, for every sequence of write/puts/flush (mixed with reading calls) and every pattern of short or failing sends by the kernel: as long as no call reports a failure, the bytes sent plus the bytes still buffered are the bytes written, in order, and after a successful flush everything has been sent. After a failure the bytes sent are still a prefix of the bytes written, and a short write reports how many bytes of its argument were sent.", "quantifier": "all call histories and all kernel behaviours", "why_tests_cant": "Kernel nondeterminism and buffer boundaries.", "anchors": ["src/network/socket.cpp: stream_socket::write, flush, puts, send_all, send"]}
{"id": "C50", "title": "Socket input buffering preserves the byte stream", "statement": "For every mix of read/getc/getline (and writing calls) and every way the kernel chunks the incoming data, the bytes delivered are a prefix of the incoming stream, in order, and getline returns exactly the next line, without its line end, or as much of it as the limit allows.", "quantifier": "all call histories and all chunkings", "why_tests_cant": "Kernel nondeterminism.", "anchors": ["src/network/socket.cpp: stream_socket::read, getc, getline, fill_buf, recv"]}
{"id": "C51", "title": "HTTP header map", "statement": "header get/set/erase/has_key behave as a case-insensitive map that keeps insertion order and at most one entry per name.", "quantifier": "all histories of operations, all keys", "why_tests_cant": "Histories unbounded, case folding.", "anchors": ["src/network/http/base.cpp: header"]}
{"id": "C52", "title": "HTTP headers survive the wire", "statement": "Sending a well-formed header block and reading it back gives the same header, leaving the body unread; folded lines are joined.", "quantifier": "all header lists without CR/LF and with legal names", "why_tests_cant": "All contents and all chunkings.", "anchors": ["src/network/http/base.cpp: header::send, header::read_header"]}
{"id": "C53", "title": "HTTP bodies are delivered exactly", "statement": "A fixed-length body stream yields exactly Content-Length bytes and a chunked body stream exactly the concatenated chunks, for every byte content.", "quantifier": "all bodies, chunkings and lengths including 0", "why_tests_cant": "All byte values and lengths.", "anchors": ["src/network/http/base.cpp: basic_httpbody_chunked_streambuf, basic_httpbody_streambuf"]}
{"id": "C54", "title": "RPC calls are transparent", "statement": "A remote call returns exactly f(args) for the function registered under the name, or reports method-not-found / version mismatch with the right data, for every argument and result type.", "quantifier": "all function tables, names, versions, arguments", "why_tests_cant": "Types and values unbounded; depends on framing of both sides.", "anchors": ["src/network/rpc/caller.h, invoker.h, base.cpp: rpc_server::process, DO_RPC, DO_INVOKE, gen_exception"]}
{"id": "C55", "title": "MessagePack-RPC replies match requests", "statement": "A call over a MessagePack-RPC connection returns the response that the server made for this very request: the result of the function registered under its name, applied to its arguments, or the exception for an unknown function or wrong arguments. This holds also when responses to earlier calls, given up by a timeout, come first, and however the bytes are cut on the way. Functions are run once for each request, in the order of the requests.", "quantifier": "all tables of functions, all histories of calls, timeouts and closed connections, all ways of cutting the bytes, with fewer than 2^32 calls on a connection", "why_tests_cant": "It depends on histories with timeouts at every point, and on how the network cuts the bytes.", "anchors": ["src/network/mprpc/rpc_stream.cpp: rpc_stream::join, try_receive", "src/network/mprpc/rpc_stream.h: send, call", "src/network/mprpc/object_stream.cpp: object_stream::read, write", "src/network/mprpc/rpc_server.cpp: process, process_request, add", "src/network/mprpc/caller.h: gen_exception, DO_RPC", "src/network/mprpc/invoker.h: invoker0..", "src/network/mprpc/argument.h: msgpack_pack, msgpack_unpack", "src/network/mprpc/message.h: rpc_message, rpc_request, rpc_response"]}
{"id": "C56", "title": "RPC server shutdown wakes its waiters", "statement": "After stop, once the worker threads have exited, the server is stopped and every thread blocked in wait_until_stopped returns.", "quantifier": "all interleavings of start/stop/wait and worker exits, any number of waiters", "why_tests_cant": "Schedules.", "anchors": ["src/network/rpc/base.cpp: rpc_server::stop, wait_until_stopped, notify_if_this_is_the_last_running_threads"]}
{"id": "C57", "title": "CGI query strings decode", "statement": "Parsing a query string made of percent-encoded key=value pairs gives each key its last value in query and all its values in order in multi_query.", "quantifier": "all lists of key/value pairs", "why_tests_cant": "Unbounded lists, all bytes.", "anchors": ["src/network/cgi/base.cpp: cgi::parse_input"]}
{"id": "C58", "title": "CGI multipart bodies are recovered and parsing terminates", "statement": "For a multipart body whose parts do not contain the delimiter each part's content is recovered exactly, and parsing terminates on every input.", "quantifier": "all bodies and boundaries", "why_tests_cant": "Hostile input, boundary overlaps.", "anchors": ["src/network/cgi/base.cpp: cgi::parse_multipart_input, extract_header, extract_attr"]}
{"id": "C59", "title": "optional behaves like a value", "statement": "optional copies, assigns and compares as expected: an empty optional equals only an empty one and orders before every value; ordering is a strict weak order when the element order is.", "quantifier": "all values of any element type", "why_tests_cant": "All values.", "anchors": ["src/data/optional.h"]}
{"id": "C60", "title": "LRU lookups return the value last stored", "statement": "After set(k,v) on an lru of capacity at least 1, an immediately following get(k) returns v.", "quantifier": "all reachable caches, keys and values", "why_tests_cant": "Whether it holds depends on the history: it fails exactly when the key is still present.", "anchors": ["src/data/lru.h: lru::set, lru::get"]}
{"id": "C61", "title": "Bounded random integers stay in range", "statement": "next_int(a) is in [0, a) and next_int(a, b) in [a, b) for every output of the generator, although the product with a is rounded; every number of the range can occur.", "quantifier": "all bounds and all generator outputs", "why_tests_cant": "The critical outputs have probability 2^-53.", "anchors": ["src/math/random.h: random::next_int, random::next_double"]}
{"id": "C62", "title": "Connections of one socket do not mix", "statement": "When a stream_socket is connected again, the bytes sent on the new connection are those written since it was made, and the bytes read are those its peer sent; a socket whose connection broke can be connected again.", "quantifier": "all histories of several connections", "why_tests_cant": "Depends on what earlier connections left in the buffers.", "anchors": ["src/network/socket.cpp: stream_socket::connect, shutdown, close"]}
{"id": "C63", "title": "HTTP messages survive the wire", "statement": "A request or response that is sent over a connection and received at the other end has the method, URI, version, status code, reason, header field values and body that the sender gave it, however the network cuts the data into pieces; send() reports success only if the whole message has been handed to the connection; and reading the body to its end consumes nothing of what follows the message.", "quantifier": "all methods, URIs, versions, codes, reasons, headers and bodies; all ways of reading the body; all behaviours of the kernel on both sides", "why_tests_cant": "The result depends on the lengths of lines, header and body against internal buffer sizes and on where the kernel cuts or breaks the stream; tests cover a few messages on a loopback connection.", "anchors": ["src/network/http/base.cpp: request::request, request::send, response::response, response::send, header::send", "src/network/http/base.h: request, response", "src/network/iostream.h: basic_socketstreambuf"]}
{"id": "C64", "title": "Lexical casts of integers are exact", "statement": "lexical_cast of an integer to a string and back gives the same integer, for every integer type; the cast of a string gives the integer that the string denotes, or throws bad_cast if the target type does not have it or if the string is not a numeral.", "quantifier": "all integers, all integer types that are not characters, all strings", "why_tests_cant": "Boundaries of every type, signs, leading zeros, all strings.", "anchors": ["src/lang/cast.h: lexical_cast, detail::lexical_cast"]}
{"id": "C65", "title": "The web server runs the CGI program on each request and answers with its output", "statement": "For every request that reaches the stand-alone web server over a connection that does not fail, run() is called once with the request's method, its variables (REQUEST_METHOD, REQUEST_URI, QUERY_STRING, the header fields and so on) and the form values or files it carries, and the client receives the status, header fields and body that run() produced, and nothing else; a POST beyond the limit gets status 500 without a call of run(); a request that fails does not keep the server from serving the next.", "quantifier": "all requests, all CGI programs with state, all sequences of connections, all ways in which the kernel cuts the data", "why_tests_cant": "Requests, program outputs and the cutting of data by the kernel are unbounded, and the state that earlier requests leave may matter.", "anchors": ["src/network/cgi/server.cpp: run_server::process, gen_resp, str_to_upper", "src/network/cgi/base.cpp: cgi::exec"]}
{"id": "C66", "title": "A stream opened on a URL yields the resource", "statement": "Opening an HTTP stream on an http URL connects to the URL's host at the URL's port (80 if there is none), sends one GET request for that URL with the host and, if the URL has user information, the matching basic authorization, and then yields exactly the body the server sends (with a length, in chunks, or up to the end of the connection) and its header fields, however the reader mixes looking ahead and taking characters; a host that does not answer and a scheme other than http give an exception. In particular, if the server is a web server of this library, its CGI program is called with the URL's path, query and host, and its output is what the stream yields.", "quantifier": "all URLs, all networks, all server replies, all ways in which the kernel cuts the data, all sequences of reads, all CGI programs and earlier requests", "why_tests_cant": "URLs, replies, ways of cutting and interleavings of reads are unbounded; a test needs a server and sees few of them.", "anchors": ["src/network/http/stream.h: basic_httpstreambuf, basic_httpstream", "src/network/uri.cpp: uri", "src/network/http/base.cpp: request, response", "src/network/cgi/server.cpp: run_server::process"]}
{"id": "C67", "title": "Clock times and calendar times convert into each other", "statement": "A calendar_time made from a clock_time holds the date and time of day of that instant in the local time zone, with the right day of the week, day of the year and summer-time flag and the same microseconds; converting it back gives the same clock_time whenever the local clocks show that time only once (and always one that shows the same); a calendar_time made from year, month, day and so on denotes that date and time.", "quantifier": "all clock times, all time zones with any changes of the clocks, all dates", "why_tests_cant": "Leap years, summer time changes and time zones make far more cases than tests visit, and whether an uninitialised member is read depends on what memory happens to hold.", "anchors": ["src/system/time_util.cpp: clock_time::clock_time, calendar_time::calendar_time", "src/system/time_util.h: clock_time, calendar_time"]}
{"id": "C68", "title": "Values pass between program and database unchanged", "statement": "A value given to execute or run is handed to the database as the same value, at its position; a value of a column read into a variable is the same value: integers are converted only if they fit, anything else that the type cannot hold is a database_error, and a row with another number of columns than there are variables is a database_error that changes no variable.", "quantifier": "all values, all numbers of arguments and columns up to ten, all rows", "why_tests_cant": "The calls for each number of arguments are separate code, and the values are unbounded; a slip at one position or one size shows only for that combination.", "anchors": ["src/database/type.h: to_sql, from_sql", "src/database/statement.h: execute, fetch_row", "src/database/connection.h: run"]}
{"id": "C69", "title": "Transactions are all or nothing", "statement": "A block under transaction(conn) takes effect as a whole or not at all. If it ends normally all its statements are done; if an exception leaves it, or a statement has an error, none are, except that when the answer to the final commit is lost they may all be. This holds wherever a call is refused or the connection lost. A statement outside a transaction is done exactly once if run returns, and at most once if it throws.", "quantifier": "every list of statements, every behaviour of the statements on the data, every choice of which calls to the server are refused or lose the connection before or after the server has acted, both backends", "why_tests_cant": "Tests do not lose the connection at every possible call, and the combination of reconnecting and transactions only shows then.", "anchors": ["src/database/util.h committer, transaction", "src/database/postgresql/connection.cpp postgresql_connection_impl::reconnect, begin_transaction, commit, rollback, run", "src/database/postgresql/statement.cpp postgresql_statement::execute", "src/database/mysql/connection.cpp mysql_connection::query, run, prepare, reconnect", "src/database/mysql/statement.cpp mysql_statement::execute"]}
{"id": "C70", "title": "PostgreSQL statements, arguments and rows", "statement": "In a query, the question marks become the server's numbered parameters in order and nothing else changes. Each argument reaches the server as a text for the same value, NULL as NULL, in order. The rows of a result are fetched each exactly once, in the server's order, with the values it sent and NULL as the null pointer, and then fetch_row returns false; an execution starts over with its own rows, one that fails keeps the old ones. A prepared statement runs its own query. Times written and read back are the same.", "quantifier": "every query text, all values of all types, every result of the server, any sequence of executions and fetches", "why_tests_cant": "Conversions between binary values and texts have corner cases (extremes, fractions, zero bytes, time zones) that samples miss; statements interfere with each other only in certain orders.", "anchors": ["src/database/postgresql/statement.cpp convert_query, postgresql_statement", "src/database/postgresql/value.cpp oid_to_sql_type, make_sql_value, str_to_sql, sql_to_str", "src/database/postgresql/result.cpp postgresql_result"]}
{"id": "C71", "title": "What is bound reaches MySQL, and what MySQL sends is read", "statement": "The arguments of a statement reach the server one for one with their values: every integer, every double, every string of any length and with any bytes, NULL, and times to the microsecond. Another number of arguments than the statement has places is refused. Each row of the answer is fetched once, in the order of the server, with all bytes of its strings however long they are and however their lengths change from row to row, and with its NULLs; then fetch_row says that there are no more.", "quantifier": "all values and lists of arguments, all column types, all tables the server may send, strings of all lengths, all sequences of fetches", "why_tests_cant": "The buffers grow only when a value is longer than any before in its column, and keep stale bytes and lengths between rows; tests cannot try all sequences of lengths and NULLs", "anchors": ["src/database/mysql/value.cpp (to_bind, from_bind, bind_length)", "src/database/mysql/statement.cpp (execute, fetch_row)"]}
{"id": "C72", "title": "What is put into a JSON archive comes out in order", "statement": "Values of any supported types that are put into a json_oarchive one after the other, plain or pretty, with or without escapes, are read back from a json_iarchive on the same data in the same order and with the same values, whatever their texts end with; then the end of the data is reported. Reading a value as a type it does not fit throws and leaves the archive at the next value.", "quantifier": "all sequences of values, all types built from the supported ones, both printing modes, both escape modes, every type asked for", "why_tests_cant": "Every read uses a new parser, which may have read one character ahead and drops it; whether that harms depends on the last character of each value and the first of the next", "anchors": ["src/text/json/serialization.h (json_iarchive::get, json_oarchive::put)", "src/text/json/cast.h (via_json)"]}
{"id": "C73", "title": "any and scoped_ptr own their values", "statement": "Objects of type any behave as plain variables that hold a value of any type or nothing: whatever sequence of constructions, copies, assignments, swaps and destructions a program makes, a cast gives back exactly the value last stored if the type is the one asked for and throws otherwise, a copy is not affected by later changes of the original, and an assignment that throws because memory or the value's copy constructor fails leaves the object unchanged. Each value's memory belongs to exactly one object at any moment, so it is deleted once and nothing leaks. The same ownership holds for scoped_ptr, whose construction, reset, swap and destructor delete each object given to it exactly once (unless it is reset to the pointer it has already).", "quantifier": "Every finite sequence of operations on any number of objects, every type and value, and every choice of allocations that fail.", "why_tests_cant": "A test makes a few copies and casts; double deletes and leaks show only after particular orders of copying, swapping, self assignment and failing allocations.", "anchors": ["src/lang/any.h any::any", "src/lang/any.h any::operator=", "src/lang/any.h any::swap", "src/lang/any.h any::cast", "src/lang/any.h any_cast", "src/lang/scoped_ptr.h scoped_ptr::reset", "src/lang/scoped_ptr.h scoped_ptr::swap"]}
{"id": "C74", "title": "Memory mapped files", "statement": "A program that opens files with mmapper sees the bytes of the file, shared with all other mappers of the same file and with other processes: what is written through one is read through the others. Opening a file that does not exist, is empty, or for which a system call fails returns -1 and leaves the mapper as it was (still showing what it showed before). At any moment each file descriptor and mapping belongs to exactly one mapper; opening again, closing, swapping and destroying neither leak nor release twice. Moving a mapper moves what it has open.", "quantifier": "Every finite sequence of operations on any number of mappers, every choice of descriptors and addresses by the system (which uses them again), every failing system call.", "why_tests_cant": "A descriptor or mapping that is leaked, or released twice while its number has been given to somebody else, shows only after particular histories; the tests of moves do not read any byte.", "anchors": ["src/system/mmapper.cpp mmapper::open", "src/system/mmapper.cpp mmapper::close", "src/system/mmapper.h mmapper::mmapper", "src/system/mmapper.h mmapper::operator=", "src/system/mmapper.h mmapper::swap"]}
{"id": "C75", "title": "Vectors follow the laws of linear algebra", "statement": "For every class of vectors, of two to ten components, and every type of components with exact arithmetic: addition and multiplication by scalars form a module; the assignments a += b, a -= b, a *= m and a /= m leave in a what the operators give; the inner product is symmetric and bilinear, the norm is positive definite, and the inequality of Cauchy and Schwarz holds; subtracting the projection on b leaves a vector orthogonal to b; a normalized vector is parallel to the original and has the length that was asked for; the outer products in the plane and in space are alternating, bilinear and satisfy the identities of Lagrange and Jacobi, and the one in space is orthogonal to its factors; < is a strict total order, the dictionary order, that agrees with ==; vectors written to an array or to text are read again; indexing reads and changes exactly one component.", "quantifier": "all twelve classes, all vectors and scalars, all component types that are commutative rings (fields, ordered rings, linear orders where needed), all texts", "why_tests_cant": "The laws are about all pairs and triples of vectors over all component types; tests look at a few vectors of one or two classes.", "anchors": ["src/math/vector.h:component_by_name::vector2", "src/math/vector.h:component_by_name::vector3", "src/math/vector.h:component_by_name::vector4", "src/math/vector.h:component_by_array::vector2..vector10", "src/math/vector_h.rb"]}
{"id": "C76", "title": "Lock objects hold their locks exactly as long as they live", "statement": "Under every interleaving of threads that make, copy and destroy scoped_lock, scoped_rlock and scoped_wlock objects on any number of mutexes, recursive mutexes and read-write locks: a lock is held by exactly the threads whose objects say that they are locked, once for each object; two objects that are locked on the same lock never belong to two threads unless both are readers; destroying an object gives back exactly what it took, so that a thread without lock objects holds nothing, however its scopes were left; a copy takes the lock over; a constructor on a lock nobody holds is not blocked and succeeds. singleton<T>::instance() makes at most one object under every interleaving, all calls that return give that object, a constructor that throws is tried again, and the threads do not block each other for ever. Times in seconds are converted to whole seconds and nanoseconds below 1000000000.", "quantifier": "all numbers of threads, locks and objects, all schedules, all error codes of the native calls, all times", "why_tests_cant": "The schedules and the ways in which scopes are left are unbounded; tests run a few.", "anchors": ["src/concurrent/lock.h:scoped_lock", "src/concurrent/lock.h:synchronized", "src/concurrent/rwmutex.h:rlock, wlock, scoped_rlock, scoped_wlock", "src/lang/singleton.h:singleton::instance", "src/concurrent/internal.cpp:to_timespec"]}
{"id": "C77", "title": "A socketstream is like a stream in memory", "statement": "When no system call fails, any sequence of get, peek, read, getline, put, write and flush on a socketstream gives the results and the stream state that a stream in memory gives on the bytes the peer sends, and the peer gets what was written once the stream is flushed or its socket released. Whatever the kernel does, reading gives what reading a beginning of the peer's bytes gives; while the stream is good, all results were right and everything written is sent or buffered in order (sent after a flush); the peer never gets anything but a beginning of what was written; a stream that is not good leaves the socket alone; and a stream that gets another connection begins anew.", "quantifier": "all byte sequences sent by the peer, all sequences of stream operations, all ways in which the kernel splits the data or fails", "why_tests_cant": "The stream buffer has a single byte of look-ahead between the library and the socket; the result depends on where each recv and send ends, and on which call fails.", "anchors": ["src/network/iostream.h: basic_socketstreambuf, basic_socketstream", "src/network/socket.cpp: stream_socket::write, flush, getc, ~stream_socket"]}
{"id": "C78", "title": "Network objects neither leak descriptors nor touch those of others", "statement": "At every moment the open descriptors of the network classes (stream_socket, server_socket, the sockets, streams, clients and accepted connections of MessagePack-RPC) are exactly those that a live object is responsible for, no two objects are responsible for the same one, and no system call is made on a descriptor that is closed or belongs to something else in the process; when all objects are destroyed, no descriptor is left open.", "quantifier": "all sequences of calls on any number of objects, all outcomes of the system calls, all descriptors that other threads open and close in between", "why_tests_cant": "A wrong descriptor shows only when another thread has got the same number between two system calls, and a leak only after thousands of failures.", "anchors": ["src/network/socket.cpp: stream_socket, server_socket", "src/network/mprpc/socket.cpp: socket", "src/network/mprpc/object_stream.cpp: object_stream", "src/network/mprpc/rpc_client.cpp: rpc_client::get_connection", "src/network/mprpc/rpc_server.cpp: rpc_server::process", "src/system/syscall.h: NO_INTR"]}
{"id": "C79", "title": "The description of a type tells what is on the wire", "statement": "get_type<T>() describes every type T that can be serialized with it as it is: kinds and sizes of numbers, elements of containers, and for classes the name and the members in the order in which they are written. It does nothing undefined, however deep the nesting. Two types whose descriptions print as the same text are written by the binary archives in the same way, so that a value written by one program is read unchanged by another whose type has the same text. traverse calls its function once for each part of a description, from left to right. The description of an RPC interface holds its name, its version and exactly its methods with the types of their results and arguments.", "quantifier": "all types built from numbers, strings, streams, vectors, maps and classes of any depth; all names; all values; all interfaces", "why_tests_cant": "types nest without bound and the claim about texts compares every pair of types", "anchors": ["src/data/serialization/reflect.h: reflection, get_type, class_type, named_value, class_name", "src/data/serialization/vector.h: array_type", "src/data/serialization/map.h: map_type", "src/data/serialization/iostream.h: stream_type", "src/network/rpc/reflect.h: extract, reflect_base, REFLECT_RPC_PROC, REFLECT_RPC_GEN"]}
{"id": "C80", "title": "A MessagePack-RPC server starts, stops and joins its workers", "statement": "run(n) starts exactly n workers. While the server runs it listens. stop(), called from any thread at any time, makes the server come to rest in bounded many steps: every worker ends, and join() and a synchronous run() return. When join(), a synchronous run(), or a run() that could not start all threads returns, no worker is left, so that the server can be run again or destroyed; nothing undefined happens. A worker serves only connections made to the server's own socket.", "quantifier": "all interleavings of one owner, any number of threads that call stop, and any number of workers; all outcomes of thread creation, accept and receive; all sequences of calls", "why_tests_cant": "the outcome depends on the schedule; there are unboundedly many", "anchors": ["src/network/mprpc/rpc_server.cpp: rpc_server::run, stop, join, process, create", "src/network/mprpc/socket.cpp: socket::close, socket::listen", "src/concurrent/thread.cpp: thread::impl::start, join"]}
{"id": "C81", "title": "A page shows the nesting of the blocks that made it", "statement": "A program derived from xhtml_cgi puts out the page that its text describes: each tag__ contains exactly what is added within its block, in order, with the attributes given within its block (each once, the last value counting), even if the block is left early by break, return or an exception that is caught further out. Text and attribute values cannot make markup. The page does not depend on earlier requests, and a program that ends by an exception puts nothing out. A client of the web server gets this page as HTML. The error page shows its message as text.", "quantifier": "all programs, of any depth of nesting, with loops, functions and handlers left in any way; all texts, values and names; all states left by earlier requests", "why_tests_cant": "the nesting is unbounded and every way to leave a block must close the right tags", "anchors": ["src/network/cgi/xhtml_builder.cpp: push, enter, leave", "src/network/cgi/inserter.cpp: tag_inserter, text_inserter, prim_inserter", "src/network/cgi/xhtml_cgi.cpp: xhtml_cgi::run", "src/network/cgi/tags.h: tag__, attr__, text__, prim__", "src/network/cgi/base.cpp: cgi::exec"]}
{"id": "C82", "title": "System statistics tell what the kernel reports", "statement": "get_sysstat gives the load of the last minute from /proc/loadavg, the memory of the machine and the memory that is free or used as cache from /proc/meminfo, in bytes, whatever the order of the lines there and whatever other lines there are. What is free is never told to be more than the total. An error is reported if the files cannot be read.", "quantifier": "all contents of the two files, with any lines in any order and any numbers", "why_tests_cant": "the files depend on machine, kernel and moment; tests see one machine", "anchors": ["src/system/sysstat.cpp: get_sysstat, get_loadavg, get_total_memory, get_free_memory", "src/system/sysstat.h: sysstat_ret"]}
{"id": "C83", "title": "Programs behave alike under CGI and FastCGI", "statement": "run_cgi lets the program see exactly the variables of the environment, the method, and the form values or files of the call, and writes its answer to standard output. run_fcgi answers every request as run_cgi would answer it for a program in the state that the requests before left; for a program without state, as if it were called for this request alone. A web server that stops reading an answer gets a beginning of it, and later requests are not affected. A request that cannot be understood affects no other.", "quantifier": "all environments and inputs, all programs and states, all sequences of requests, all points at which the web server stops reading", "why_tests_cant": "the answers depend on every byte of input, on all earlier requests and on when the peer goes away", "anchors": ["src/network/cgi/util.cpp: get_env", "src/network/cgi/cgi.cpp: run_cgi::run", "src/network/cgi/fcgi.cpp: basic_fcgxstreambuf, run_fcgi::run", "src/network/cgi/base.cpp: cgi::exec"]}
{"id": "C84", "title": "The web server starts as its command line says", "statement": "However its options are written (short, long, abbreviated, joined, with other words in between), a server listens with the last given port, number of threads and timeout, or with their defaults, and never with values out of range; a value that cannot be used is refused before it listens. run_server_or_cgi is a server exactly if it is asked to be one. run starts as many threads as it was told and reports if it cannot.", "quantifier": "all command lines of any length; all numbers of threads; all threads that the system refuses to start", "why_tests_cant": "the ways to write and combine options are unbounded", "anchors": ["src/network/cgi/server.cpp: run_server::run_server, run_server::run, run_server::join, run_server_or_cgi::run", "src/network/cgi/server.h: run_server"]}
{"id": "C85", "title": "Shared objects live exactly as long as they are shared", "statement": "An object taken over by a shared_ptr lives while any shared_ptr points to it and is destroyed once, by the deleter given, when the last one goes, whatever the threads of the program do. use_count is the number of pointers that share. weak_ptr::lock, the constructor from a weak_ptr and shared_from_this give a pointer that shares while the object lives, and an empty pointer or bad_weak_ptr after that. Casts share with their original. If the pointers inside objects do not go round in a circle, nothing is left when the variables are gone.", "quantifier": "all programs of any number of threads, objects and pointers, also pointers inside objects, and all interleavings", "why_tests_cant": "the histories and interleavings are unbounded", "anchors": ["src/lang/shared_ptr.h: shared_ptr, static_pointer_cast, dynamic_pointer_cast, const_pointer_cast, get_deleter", "src/lang/weak_ptr.h: weak_ptr, weak_ptr::lock", "src/lang/enable_shared_from_this.h: enable_shared_from_this::shared_from_this"]}
{"id": "C86", "title": "JSON handles share their values; clones do not", "statement": "Copying a json handle, adding it to an array or object, looking up a part and merging all share values: a change made through one handle shows through every other that holds the value or a whole it is part of, until that handle is itself assigned. clone() succeeds exactly if printing does, shows the same, and has no part in common with anything that existed before, so that nothing done to either ever shows in the other. add, x[k]=y, x[i]=y and merge show what they should as long as a value is not put into itself or one of its parts; documents that the changed value is no part of are as before. Uses of the wrong type throw json_bad_cast and change nothing; reading through a const handle never changes anything and throws out_of_range for a missing member, while a lookup by name through a handle that is not const makes the missing member, as null, even if the expression then throws. A program that puts no value into itself can print and clone every document; otherwise printing and cloning never end. An array subscript out of range, and any use of a handle made from 0, is undefined behaviour; nothing else is.", "quantifier": "every program of json statements (construction, copies, lookups by paths of subscripts, assignments, add, clone, merge, size, count, type, printing) over any number of variables, from any sound memory, and every stack depth", "why_tests_cant": "Aliasing bugs show only in particular histories of copies and changes; tests compare single values, never whole memories after arbitrary programs.", "anchors": ["src/text/json/base.h: json, json_array, json_object, json::operator[], json::add, json::clone, json::merge, json::size, json::count"]}
{"id": "C87", "title": "Times in seconds reach the system as asked", "statement": "A time in seconds given to sleep, to a timed wait, timed lock or timed push and pop, or as a timeout of a socket or stream reaches the system as that time, although it passes through double arithmetic: to within a nanosecond for sleeping, a microsecond for ends of waits and socket timeouts (until 2106), and five microseconds for the end of a timed push or pop however often it is woken in vain. The system is never given an invalid time, a longer wait never ends earlier, and a stream times out only when its time has passed. A positive timeout is a timeout, and never means waiting forever.", "quantifier": "all doubles, all readings of the clock and all numbers of vain wakings", "why_tests_cant": "There are 2^64 doubles, the rounding depends on the reading of the clock, and errors of a nanosecond cannot be observed.", "anchors": ["src/concurrent/thread.cpp: thread::sleep", "src/concurrent/internal.cpp: to_timespec", "src/concurrent/condition.cpp: condition::wait", "src/concurrent/rwmutex.cpp: read_lock, write_lock", "src/concurrent/pcbuf.h: push, pop", "src/network/socket.cpp: set_timeout", "src/network/mprpc/socket.cpp: set_timeout", "src/network/mprpc/object_stream.cpp: read, write", "src/system/time_util.h: clock_time::operator double"]}
{"id": "C88", "title": "Floating point numbers in JSON texts", "statement": "A JSON document with floating point numbers comes back from its printed text with every number rounded to 12 significant digits, still a floating point number, and with nothing else changed; printing and parsing once more changes nothing; numbers that are decimals of at most 12 digits come back exactly. A number text is read as the nearest double, and a text outside the range of double is refused.", "quantifier": "all documents with finite double values, nested arbitrarily, compact or indented, escaped or not; all number texts", "why_tests_cant": "There are 2^64 doubles, rounding twice (decimal and binary) can go wrong for a few of them, and tests try round numbers.", "anchors": ["src/text/json/base.h: json_float::print", "src/text/json/parser.cpp: json_parser::parse_number"]}
{"id": "C89", "title": "Random real numbers", "statement": "next_double() returns a multiple of 2^-53 from 0 to below 1, all equally likely if the generator's numbers are. next_double(a) returns a number from 0 to below a for every a above the smallest normal double, and next_double(a,b) never leaves the interval from a to b while b-a is a double. next_gaussian() returns, whatever was called before, a finite number made of two random numbers by Box and Muller's formula, each pair used for two calls; it never takes the logarithm of zero and never returns a value that was not set. Two generators seeded from the clock agree exactly if their readings differ by a multiple of 2^32 microseconds.", "quantifier": "every generator, every state, every pair of doubles, every sequence of calls", "why_tests_cant": "the ends of the interval are reached with probability 2^-53, so no test sees whether rounding leaves it; logarithm of zero likewise", "anchors": ["src/math/random.h:random::next_double", "src/math/random.h:random::next_gaussian", "src/math/random.h:random::feeder", "src/math/constant.h:pi"]}
{"id": "C90", "title": "Iterating over CSV rows", "statement": "The usual loops over a csv_parser (by csv_iterator and by next) see exactly the rows that parse_csv returns, in order. A copy of an iterator keeps the row that was current when it was made, whatever is done with the parser and other iterators. A program that does not assign iterators never reads memory that is gone. At the end dereferencing throws.", "quantifier": "every text, every sequence of operations on any number of iterators over one parser", "why_tests_cant": "which buffer a row points into depends on the history of copies, assignments, increments and destructions; a dangling pointer usually still reads the old bytes", "anchors": ["src/text/csv.h:csv_iterator", "src/text/csv.h:csv_parser"]}
{"id": "C91", "title": "Database connections go where they were asked to and are closed", "statement": "connect(host, port, dbname, user, password) makes the client library connect with exactly these parameters: for MySQL always (up to a NUL), for PostgreSQL when they are plain words or are quoted by the caller. Parameters that are neither do not arrive: an empty host makes the host 'port=...', an empty database or user name swallows the next setting, a password with a space is refused, and a database name with a space can redirect the connection to another host. Every handle of the client library is closed exactly once and not used afterwards, whatever fails: making it, connecting, pinging, any number of reconnections; a failed connection leaves none.", "quantifier": "all parameter strings and ports; all histories of successful and failed connections and reconnections, followed by deletion", "why_tests_cant": "Tests use one server and plain names; strings with spaces, backslashes, quotes or nothing in them, and failures in the middle of reconnecting, are not tried.", "anchors": ["src/database/postgresql/connection.cpp:connect", "src/database/postgresql/connection.cpp:postgresql_connection_impl", "src/database/mysql/connection.cpp:connect", "src/database/mysql/connection.cpp:mysql_connection_impl"]}
{"id": "C92", "title": "Remote calls run at most once, whatever breaks", "statement": "Wherever connections between an RPC client and server break - refused at connecting, cut after any byte of the ping, the request or the answer, closed by the server because of its timeout - each call runs the function at most once on the server, with the arguments given; a value returned to the caller is the result of that run; cannot_get_connection, method_not_found and version_mismatch are thrown only if the function has not run and the reported condition holds; the next call is not confused by what is left of earlier ones; and calls end, if the server has a timeout or functions throw no rpc_error.", "quantifier": "all functions, types, values and versions, all byte positions at which each connection breaks in each direction, all sequences of calls and closed connections", "why_tests_cant": "Tests break connections at a few places; the property speaks about every byte of every message of every type.", "anchors": ["src/network/rpc/base.cpp:rpc_server::process", "src/network/rpc/base.cpp:rpc_client::get_connection", "src/network/rpc/caller.h:DO_RPC", "src/network/rpc/caller.h:gen_exception", "src/network/rpc/invoker.h:invoke"]}
{"id": "C93", "title": "Lexical casts of floating point numbers say which digits they keep", "statement": "lexical_cast of a string to float or double gives the number of the type nearest to the one that the string begins with, for every notation with point and exponent, and throws bad_cast exactly if it does not begin with one or the number is too large. The cast of a number to a string gives the number rounded to 6 digits; a cast of the string back, or between float, double and the integer types, gives what the type has for that rounding.", "quantifier": "all strings, all finite numbers of float and double, infinities and NaN, all signed integer types of at least 21 bits", "why_tests_cant": "There are 2^64 numbers and unboundedly many texts for each; wrong results appear at magnitudes that tests seldom visit (from a million on, below one ten thousandth) and are silent.", "anchors": ["src/lang/cast.h: lexical_cast, detail::lexical_cast"]}
{"id": "C94", "title": "PHP clients that genrpc makes exchange the same values with a C++ server", "statement": "For an interface whose types are integers of 1, 2 or 4 bytes, double, strings, vectors, maps from integers or strings, and named classes with differently named members, the PHP file that genrpc writes defines a client with all methods; a call with PHP values that stand for C++ values makes a server with protocol version 1 run the function once with these values, and gives a PHP value that stands for its result; the connection is then ready for the next call. A client can be made for every interface whose types can be serialised, and every result comes back.", "quantifier": "all interfaces, all values of their types, all servers and functions, all ways in which answers are split into pieces, all earlier calls", "why_tests_cant": "Types nest without bound, and what goes wrong depends on sizes of integers, on empty strings, on the pieces in which bytes come, and on names shared by classes in different interfaces; tests with a handful of ints over a local connection see none of it.", "anchors": ["tools/genrpc/gen_php.h:php_generator", "tools/genrpc/pfi_rpc.php", "src/network/rpc/server.h"]}
{"id": "C95", "title": "Haskell clients made by genrpc exchange values with a server", "statement": "For an interface of 32-bit integers, doubles, characters, strings, vectors, maps and named classes whose names cause no clash, genrpc --haskell writes a program with a function for each method whose types fit those on the wire; a call of a server with version 1 runs the function once, with the arguments that were given, and the client gets a value that stands for the result if it has no negative integers. Negative results come back 2^32 too large, other sizes of integers and float go wrong or hang, characters above 255 are cut, bool, stream, class keys, empty classes and clashing names spoil the whole program, only the first interface of a file is used, and servers with any other version refuse each call.", "quantifier": "all interfaces, types of any nesting, values, servers, encoders and connections with nothing under way; both ways in which realToFrac is compiled", "why_tests_cant": "The set of nested types and values is unbounded, the compiler for the generated program is not part of the tests, and the faults show only for particular sizes, signs and names", "anchors": ["tools/genrpc/gen_hs.h haskell_generator::generate, add_type, print_typename", "tools/genrpc/PFIRPC.hs RPCType, call, pingPong, checkCode"]}
{"id": "C96", "title": "Streams in archives and their temporary files", "statement": "As long as an object of serialization::stream exists, its stream is open, whatever happens to copies of it, and no descriptor is left open without one. Without assignments no temporary file stays behind; without copies, assignments and failures the name of an object is that of its file and files of others are never removed. What is left to read in a stream arrives in a new one and can be read from the beginning. Assignments leave files behind; a copy that goes away removes the name of the file, and the other one later removes whatever has that name; an object whose file cannot be made is undefined behaviour; sending twice, or right after writing to a file, sends nothing; receiving into a used file leaves the rest of the old contents, and into a stringstream adds to them.", "quantifier": "all histories of constructions, copies, assignments, destructions and uses of any number of objects, with any files of others and any outcomes of mkstemp; all stream contents and positions", "why_tests_cant": "The order of destructions and the names that mkstemp chooses cannot be enumerated, and a test does not look for files and descriptors that are left or removed", "anchors": ["data/serialization/iostream.h stream, serialize(Archive&, std::iostream&)", "system/file.cpp tmpstream", "system/file.h fd_stream"]}
{"id": "C97", "title": "genrpc makes the file asked for and touches nothing else", "statement": "The command genrpc, called with a language, compiler options and a header with signatures, creates exactly the file for that language next to the header, leaves every other file as it was, including the header and with no temporary files left, passes the options to the compiler as they are, and reports by its messages and exit status whether it succeeded.", "quantifier": "all command lines, header names, directories' contents, compilers and failures of the compiler", "why_tests_cant": "Tests run the tool on one header with a good compiler in a clean directory; what it deletes or leaves behind elsewhere, and which command lines are misread, depends on names and failures they do not try.", "anchors": ["tools/genrpc/main.cpp main", "tools/genrpc/main.cpp eval_cpp", "tools/genrpc/main.cpp replace", "tools/genrpc/genrpc_template.cpp main", "tools/genrpc/genrpc_extract_names.cpp", "tools/genrpc/gen_null.h null_generator::generate"]}
{"id": "C98", "title": "JSON errors say where and what, and nesting is bounded by the stack", "statement": "When the JSON parser rejects a text it reports the line and column of the place at which it stopped and a message that describes what is wrong there, independently of what follows; it reports the end of the data only when all of the text was read; the callbacks made before an exception are the beginning of those for some value; and the depth of nesting it can take is exactly the number of nested calls for which there is stack.", "quantifier": "all texts, all stack sizes, all conversions of floating point numbers by the C library", "why_tests_cant": "Tests compare a few messages; that the place is right for every kind of error at every position, and that for every stack there is a text that overflows it, are statements about all texts.", "anchors": ["src/text/json/parser.h json_parser::incr", "src/text/json/parser.h json_parser::match", "src/text/json/parser.cpp json_parser::error", "src/text/json/parser.cpp json_parser::parse_impl", "src/lang/exception.h parse_error"]}
{"id": "C99", "title": "Reading an archive costs no more than the archive is long", "statement": "Reading a value of any serializable type from a binary archive takes a number of steps, and makes a number of elements, in proportion to the bytes that the archive has, whatever these bytes are.", "quantifier": "all serializable types, all byte strings, all objects read into", "why_tests_cant": "Tests read what was written before; the costs of every other byte string, in particular those that announce more elements than they have, need an argument about all of them.", "anchors": ["src/data/serialization/vector.h serialize", "src/data/serialization/string.h serialize", "src/data/serialization/map.h serialize", "src/data/serialization/set.h serialize", "src/data/serialization/base.h binary_iarchive"]}
{"id": "C100", "title": "A sparse matrix that was written is the one that is read", "statement": "After any sequence of operations of sparse_matrix_writer objects on any matrices, a matrix whose writing has ended shows its reader exactly the rows that were appended to it since it was last opened for writing, and the other matrices are as before; calls that could not do what they should say so; and matrix_transpose leaves the transpose of its first matrix in its second, also if they are the same.", "quantifier": "all histories of open, append_row, close and destruction, all matrices, all file names, all permissions and sizes of the disk", "why_tests_cant": "Tests write one matrix and read it; matrices written one after the other, over old ones, without close, without permission or on a full disk are histories that no list of tests exhausts.", "anchors": ["src/data/sparse_matrix/sparse_matrix.cpp sparse_matrix_writer::open", "src/data/sparse_matrix/sparse_matrix.cpp sparse_matrix_writer::close", "src/data/sparse_matrix/sparse_matrix.cpp sparse_matrix_writer::~sparse_matrix_writer", "src/data/sparse_matrix/sparse_matrix.cpp sparse_matrix_reader::open", "src/data/sparse_matrix/sparse_matrix.cpp matrix_transpose", "src/data/code/code.cpp decoder::attach"]}
{"id": "C101", "title": "Bytes that are not UTF-8 damage only themselves, and text read from C strings and streams is the text that was written", "statement": "Converting any bytes to a ustring gives only Unicode characters, marks every ill-formed text with U+FFFD, and leaves every correct text between ill-formed bytes whole; a C string is converted up to its terminator and its first character is that of the string; the conversion without an end pointer agrees with the one that has an end as long as it stays in the memory, and it stays there when the text is terminated; words written to a stream with white space between them are read back in order.", "quantifier": "every byte string, every text of scalar values, every cut of a text, every memory behind a pointer, every list of words and separators", "why_tests_cant": "the number of byte strings is unbounded and errors depend on what precedes and follows them; reading past the end is not seen by a test that happens to have a zero behind the text", "anchors": ["src/data/string/ustring.h chars_to_uchar, fallback_base", "src/data/string/ustring.cpp string_to_ustring, string_to_uchar, operator<<, operator>>, is_alnum, is_hiragana, is_kanji"]}
{"id": "C102", "title": "Reading JSON into an object leaves nothing of what was there; a failed reading leaves the object as it was", "statement": "from_json(js, v) ends without an exception exactly if json_cast<T>(js) does, and then v is that value, whatever v was before. If it throws, v is unchanged.", "quantifier": "all types built from the supported ones, all JSON values, all values of v before, all contents of memory that is not initialised", "why_tests_cant": "The member that fails, the nesting around it and the old value can be anything; a test looks at the exception, not at what is left in the object.", "anchors": ["src/text/json/cast.h: from_json, serialize(json_iarchive_cast&, ...)"]}
{"id": "C103", "title": "A decoder owns the bytes it reads from", "statement": "A decoder that is attached to a file or a stream holds all its bytes; whatever sequence of attaching, reading, detaching and destroying follows, on any number of decoders, each array is freed exactly once, none is read after it is freed, none is left when the decoders are gone, and what is done with one decoder does not change what another reads; a file or stream that cannot be read entirely is reported.", "quantifier": "All sequences of operations on any number of decoders, all contents and sizes of files and streams, files that vanish, full heaps, and all copies of decoders.", "why_tests_cant": "A double free or a leak depends on the order of attaching, copying and destroying; files above 2 GiB, and files removed between two system calls, do not occur in tests.", "anchors": ["src/data/code/code.h: decoder", "src/data/code/code.cpp: decoder::attach, decoder::detach", "src/system/file.cpp: get_file_size"]}
{"id": "C104", "title": "FFT on doubles stays near the exact transform", "statement": "For 2^m complex numbers in double, of magnitude at most M and far from overflow, fft and ifft give finite numbers, and each of them is off the exact discrete Fourier transform by at most m * 2^m * (M * 2^-43 + 2^-1071); ifft after fft gives every number times the length up to that bound applied twice. Input that is itself off by e adds 2^m * e (and its share of the rounding).", "quantifier": "all lengths 2^m up to 2^31, all finite inputs of magnitude at most M with 2^m * M <= 2^1000, all input errors, both directions, every C library whose atan(1), cos and sin are off by at most 2^-52", "why_tests_cant": "Rounding errors depend on all inputs and on the library; tests compare a few vectors with a loose tolerance and cannot show a bound for all of them.", "anchors": ["src/math/fft.h:fft", "src/math/fft.h:ifft", "src/math/fft.h:detail::fft_inner"]}
{"id": "C105", "title": "Programs on variables of rational numbers", "statement": "A program that assigns rational numbers to variables and changes them by +=, -=, *= and /= leaves in every variable the number that exact arithmetic gives, in lowest terms, also where both operands are the same variable; the text that << writes for two ratios is the same only if they are equal.", "quantifier": "all programs of these statements, all variables, all integer types with a correct abs in the absence of overflow", "why_tests_cant": "Operators that change one operand while they read the other go wrong only where both are the same object, and only for some numbers; a test has to think of a /= a with a numerator other than 1.", "anchors": ["src/math/ratio.h: operator+=, operator-=, operator*=, operator/=, operator<<"]}
{"id": "C106", "title": "References into the cache", "statement": "A reference that get or operator[] of the LRU cache returns stays good, and shows the current value of its key, exactly as long as the key has not left the cache, whatever other keys are stored, touched or removed; and a value got from the cache can be stored under another key at once, c.set(k, c.get(j)).", "quantifier": "all capacities of at least 1, all key and value types, all programs of calls and of reads and writes through references", "why_tests_cant": "Whether a reference is still good depends on the whole history of evictions; a read of a destroyed value often shows the old bytes, so a test does not notice it.", "anchors": ["src/data/lru.h: lru::get", "src/data/lru.h: lru::operator[]", "src/data/lru.h: lru::set"]}
{"id": "C107", "title": "Two-dimensional FFT on doubles stays near the exact transform", "statement": "For 2^mh rows of 2^mw complex numbers in double, far from overflow, fft2d and ifft2d, on linear arrays and on matrices, give finite numbers, each off the exact two-dimensional transform by at most the bound of C104 for the columns applied to input that is off by the bound of C104 for the rows; ifft2d after fft2d on a linear array gives every number times the number of places up to that bound applied twice.", "quantifier": "all heights and widths 2^m up to 2^31, all finite inputs of bounded magnitude, all input errors, both directions, every C library whose atan(1), cos and sin are off by at most 2^-52", "why_tests_cant": "Rounding errors depend on all inputs and on the library; tests compare a few matrices with a loose tolerance and cannot show a bound for all of them.", "anchors": ["src/math/fft.h: fft2d", "src/math/fft.h: ifft2d", "src/math/fft.h: detail::fft2d_wrap"]}
{"id": "C108", "title": "A refused transform leaves the data alone", "statement": "When fft2d or ifft2d throws length_error, the array or matrix holds what it held before the call.", "quantifier": "all arrays, pitches and matrices, all directions", "why_tests_cant": "A test that checks for the exception rarely looks at the array afterwards, and only some of the reasons for refusal come late.", "anchors": ["src/math/fft.h: fft2d", "src/math/fft.h: ifft2d", "src/math/fft.h: detail::fft2d_wrap"]}
{"id": "C109", "title": "Every client of an RPC server gets its turn", "statement": "A server started with n threads serves any number of clients: connections are taken in the order in which they come, each is served by one thread only until it ends, the calls of each client are run once each and in the order it makes them, and each answer is what the function returns on the data as left by all calls run before it. Every client is served in the end, and after stop() all threads end.", "quantifier": "all numbers of threads, all numbers of clients and lists of calls, with or without a timeout, and all interleavings of clients and threads, with stop() at any moment", "why_tests_cant": "Whether a client is ever served depends on what all other clients do and on the order in which threads get on; a test has few clients, each of which closes its connection soon, and cannot see that something never happens.", "anchors": ["src/network/rpc/base.cpp rpc_server::process, rpc_server::start, rpc_server::stop, rpc_client::get_connection", "src/network/rpc/base.h rpc_server"]}
{"id": "C110", "title": "Functions of an RPC server may call the server they run on, or others", "statement": "If functions of RPC servers call functions of the same server or of other servers through an rpc_client, to any depth, then every client gets its answer, whatever other clients do; no server uses more threads than it was started with.", "quantifier": "all numbers of servers and threads, all trees of calls within calls, all numbers of clients, all orders of events", "why_tests_cant": "Whether calls lock each other out depends on how deep all calls under way go together and on the order in which threads take them; tests with few clients or enough threads always pass.", "anchors": ["src/network/rpc/base.cpp rpc_server::process, rpc_client::get_connection", "src/network/rpc/caller.h"]}
{"id": "C111", "title": "A web program is one program, however many threads serve it", "statement": "A CGI program run by run_server answers each request as though the requests came one after the other to one object: however many threads the server has, what the program's object remembers from the requests answered before is there for the next one, and every connection that is taken is answered once.", "quantifier": "all programs with any state, all numbers of threads, all connections, all orders in which threads take and finish them", "why_tests_cant": "Which thread takes a connection is decided by the kernel; a test with one client or one thread always sees the same object, and a test of several threads sees one order of many.", "anchors": ["src/network/cgi/server.cpp run_server::run, run_server::process", "src/network/cgi/base.h clonable, cloner"]}
{"id": "C112", "title": "MessagePack-RPC calls within calls always end when clients have timeouts", "statement": "When functions of MessagePack-RPC servers call functions of the same server or of others, by clients with a timeout, nobody waits for ever: once no more clients come, after a bounded number of events every caller has its answer or has given up, and all threads of all servers are free again. No server ever uses more threads than it has. Once anyone within a call has given up and no function catches the exception, the maker of the call never gets an answer and ends only by its own timeout; a function that catches it can still answer; and a function may still be begun after all who had asked for it have given up. No call is begun more often than it was asked for, and if nobody gives up and all are answered each is begun exactly once; a client who gives up and tries again may have the function run once for each try. If each server has more threads than may wait at once for all clients together, nobody has to give up: everyone is answered.", "quantifier": "all trees of calls, any number of servers, threads and clients, and every order of events, timeouts included", "why_tests_cant": "a deadlock or a lost answer needs a particular order of calls and timeouts in several threads; no test goes through all of them", "anchors": ["src/network/mprpc/rpc_server.cpp:process,process_request", "src/network/mprpc/rpc_stream.h:call", "src/network/mprpc/object_stream.cpp:read", "src/network/mprpc/caller.h:DO_RPC"]}
