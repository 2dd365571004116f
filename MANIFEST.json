{"claims": [
{"property": "C01", "status": "proved", "theorems": ["Verif.Base64.Props.base64_roundtrip", "Verif.Base64.Props.base64_encode_spec"], "note": "Exact, for all byte strings."},
{"property": "C02", "status": "partial", "theorems": ["Verif.Base64.Props.base64_rejectsMalformed_fails", "Verif.Base64.Props.base64_accepts_iff", "Verif.Base64.Props.base64_rejects_partial", "Verif.Base64.Props.base64_decode_wellFormed"], "note": "The code accepts rubbish after '=': the full property is refuted in the model; exact acceptance set and rejection of malformed texts without '=' proved."},
{"property": "C03", "status": "proved", "theorems": ["Verif.Lru.Props.lru_refines", "Verif.Lru.Props.lru_capacity", "Verif.Lru.Props.spec_bounded"], "note": "Refinement of every call history to an abstract recency list; capacity bound in every reachable state. cur is an unbounded counter in the model (the code's wraps after 2^64 operations)."},
{"property": "C04", "status": "proved", "theorems": ["Verif.Fenwick.Props.fenwick_rangeSum", "Verif.Fenwick.Props.fenwick_negative_ub", "Verif.Fenwick.Props.fenwick_beyond_ub"], "note": "All sizes, histories and ranges, over any commutative group of elements (floating point excluded). Index arithmetic in unbounded integers; no int overflow is possible for valid calls."},
{"property": "C05", "status": "proved", "theorems": ["Verif.Intern.Props.intern_refines", "Verif.Intern.Props.intern_stable", "Verif.Intern.Props.intern_injective", "Verif.Intern.Props.intern_inverse", "Verif.Intern.Props.intern_consecutive", "Verif.Intern.Props.intern_nogen_pure", "Verif.Intern.Props.intern_serialize_roundtrip", "Verif.Intern.Props.intern_load_defined", "Verif.Intern.Props.intern_load_unchecked"], "note": "Refinement of every history to the list of distinct keys, plus the named consequences. Fewer than 2^31 keys assumed (int ids)."},
{"property": "C06", "status": "proved", "theorems": ["Verif.Kmp.Props.kmp_find_first", "Verif.Kmp.Props.firstOccurrence_unique", "Verif.Kmp.Props.kmp_empty_ub"], "note": "All non-empty queries, texts and offsets; also no out-of-bounds access and termination."},
{"property": "C07", "status": "proved", "theorems": ["Verif.StrAlg.Props.editDistance_correct"], "note": "Against sequences of single-character edits anywhere in the string."},
{"property": "C08", "status": "proved", "theorems": ["Verif.StrAlg.Props.lcs_correct"], "note": ""},
{"property": "C09", "status": "proved", "theorems": ["Verif.StrAlg.Props.lis_correct", "Verif.StrAlg.Props.lis_int64_fails", "Verif.StrAlg.Props.lis_large_undefined"], "note": "All int sequences. lis_int64_fails records that wider element types break it."},
{"property": "C10", "status": "partial", "theorems": ["Verif.AhoCorasick.Props.search_exact_partial", "Verif.AhoCorasick.Props.search_eq", "Verif.AhoCorasick.Props.search_iff", "Verif.AhoCorasick.Props.search_nodup", "Verif.AhoCorasick.Props.nul_not_found", "Verif.AhoCorasick.Props.second_not_found"], "note": "search_eq says for all dictionaries and texts exactly what is reported. C10 fails for words that contain the character 0 (never found) and for the second index of a word that is listed twice; otherwise search_exact_partial is C10."},
{"property": "C11", "status": "proved", "theorems": ["Verif.StrUtil.Props.split_join", "Verif.StrUtil.Props.join_split", "Verif.StrUtil.Props.splitStr_pieces", "Verif.StrUtil.Props.splitStr_join", "Verif.StrUtil.Props.join_intercalate", "Verif.StrUtil.Props.replace_correct", "Verif.StrUtil.Props.replace_trivial"], "note": "All strings over any character type. split by an empty string separator yields no pieces (the code returns immediately); the theorems on string separators assume a non-empty one."},
{"property": "C12", "status": "proved", "theorems": ["Verif.StrUtil.Props.strip_correct", "Verif.StrUtil.Props.isStrip_unique", "Verif.StrUtil.Props.startsWith_iff", "Verif.StrUtil.Props.endsWith_iff", "Verif.StrUtil.Props.strip_ustring_ub"], "note": "strip family: all strings of values -128..255, which is every char, with glibc's isspace in the C locale. On ustring code points above 255 the call is undefined (strip_ustring_ub). starts_with/ends_with: any character type."},
{"property": "C13", "status": "proved", "theorems": ["Verif.Ustring.Props.utf8_encode_decode", "Verif.Ustring.Props.utf8_encode_rfc", "Verif.Ustring.Props.utf8_decode_encode", "Verif.Ustring.Props.stringToUchar_first", "Verif.Ustring.Props.ustringToString_nonscalar"], "note": "All sequences of scalar values and all well-formed byte strings; well-formedness is the RFC 3629 grammar. The deprecated chars_to_uchar without an end iterator is C101."},
{"property": "C14", "status": "proved", "theorems": ["Verif.Ustring.Props.checkUtf8_iff", "Verif.Ustring.Props.checkUtf8_iff_encoding"], "note": "All byte strings, against the RFC 3629 grammar and against the encoding function."},
{"property": "C15", "status": "proved", "theorems": ["Verif.Ustring.Props.sanitize_clean", "Verif.Ustring.Props.sanitize_idem", "Verif.Ustring.Props.sanitize_filters", "Verif.Ustring.Props.sanitize_fixed_iff", "Verif.Ustring.Props.sanitize_keeps"], "note": "All byte strings. 'Clean' means: no character below U+0020 (so tabs and newlines are removed too) and not U+FFFE or U+FFFF."},
{"property": "C16", "status": "partial", "theorems": ["Verif.Ustring.Props.latin_roundtrip", "Verif.Ustring.Props.latin_roundtrip'", "Verif.Ustring.Props.latin_others", "Verif.Ustring.Props.hankaku_none_left", "Verif.Ustring.Props.hankaku_correct_partial", "Verif.Ustring.Props.hankaku_semivoiced_fails", "Verif.Ustring.Props.hankaku_ff60_fails"], "note": "Latin conversions and 'no half-width form left' hold for all strings. Composition of marks fails for a semi-voiced mark after KI..TO rows and U+FF60 is destroyed (negations proved); proved for all other strings."},
{"property": "C17", "status": "partial", "theorems": ["Verif.Code.Props.roundtrip_partial", "Verif.Code.Props.roundtrip_bits", "Verif.Code.Props.encoded_size", "Verif.Code.Props.byte_unaligned_fails", "Verif.Code.Props.attachBuf_overread", "Verif.Code.Props.zero_undefined", "Verif.Code.Props.long_word_undefined"], "note": "Round trip for every mixed call sequence in which byte() is called at byte boundaries, and for all sequences without byte(); false for byte() inside a byte (negation proved), because decoder::byte does not align."},
{"property": "C18", "status": "proved", "theorems": ["Verif.Config.Props.line_iff", "Verif.Config.Props.lines_iff", "Verif.Config.Props.load_last", "Verif.Config.Props.load_error", "Verif.Config.Props.error_position", "Verif.Config.Props.write_read"], "note": "All byte strings as files. A NUL byte ends the visible part of its line (C strings); the grammar is applied to that part. Opening the file and the file name in the exception are not modelled."},
{"property": "C19", "status": "proved", "theorems": ["Verif.Md5.Props.md5_eq_rfc", "Verif.Md5.Props.pad_blocks", "Verif.Md5.Props.print_eq", "Verif.Md5.Props.print_inj", "Verif.Md5.Props.lt_strict_total", "Verif.Md5.Props.table_is_sine", "Verif.Md5.Props.table_filled", "Verif.Md5.Props.md5_own_table", "Verif.Md5.Props.accurate_exists"], "note": "All byte strings: padding, length, block order, all 64 steps and chaining equal RFC 1321, for an arbitrary sine table. The table the code fills in with doubles is the RFC's, floor(2^32 |sin i|) with the real sine, for every library sine that is off by at most 2^-40; the RFC test vectors are checked as examples."},
{"property": "C20", "status": "proved", "theorems": ["Verif.Serial.Props.round_trip", "Verif.Serial.Props.writable", "Verif.Serial.Props.prefix_free", "Verif.Serial.Props.sequence_round_trip", "Verif.Serial.Props.key_order", "Verif.Serial.Props.size_truncated_fails"], "note": "All nested types of the universe Ty; containers below 2^32 elements, which the format needs (size_truncated_fails). Floating-point values are treated as bit patterns. User classes are nested pairs."},
{"property": "C21", "status": "proved", "theorems": ["Verif.Serial.Props.truncation_detected", "Verif.Serial.Props.success_extends", "Verif.Serial.Props.failure_sticky", "Verif.Serial.Props.any_bytes_defined", "Verif.Serial.Props.any_bytes_well_formed", "Verif.Serial.Props.reread", "Verif.Serial.Props.truncated_set_ub", "Verif.Serial.Props.prefix_defined"], "note": "Every strict prefix leaves the archive failed. Reading a truncated set of arithmetic values is undefined behaviour besides (truncated_set_ub). A prefix of any other kind of value is read without undefined behaviour (prefix_defined)."},
{"property": "C22", "status": "proved", "theorems": ["Verif.Serial.Props.embed_round_trip", "Verif.Serial.Props.embed_prefix_free", "Verif.Serial.Props.embed_size", "Verif.Serial.Props.truncated_embed_diverges", "Verif.Serial.Props.cut_marker_accepted"], "note": "Round trip with any trailing data. A truncated embedded stream makes the reader loop forever (truncated_embed_diverges)."},
{"property": "C23", "status": "proved", "theorems": ["Verif.Sparse.Props.rows_survive", "Verif.Sparse.Props.valid_storable", "Verif.Sparse.Props.map_contents", "Verif.Sparse.Props.index_past_end", "Verif.Sparse.Props.negative_index", "Verif.Sparse.Props.int_max_column", "Verif.Sparse.Props.transpose_correct", "Verif.Sparse.Props.transpose_end_to_end"], "note": "For files below 2 GiB (offsets are int). Bytes of the data and offset files are modelled; file system operations are assumed to succeed, host little-endian."},
{"property": "C24", "status": "partial", "theorems": ["Verif.Mutex.Props.recursive_exclusive", "Verif.Mutex.Props.recursive_owned_iff_depth", "Verif.Mutex.Props.recursive_unlock_by_nonholder", "Verif.Mutex.Props.recursive_unlock_by_holder", "Verif.Mutex.Props.lock_counts", "Verif.Mutex.Props.recursive_owner_undisturbed", "Verif.Mutex.Props.recursive_no_ub", "Verif.Mutex.Props.free_mutex_can_be_locked", "Verif.Mutex.Props.recursive_owner_can_proceed", "Verif.Mutex.Props.plain_exclusive_partial", "Verif.Mutex.Props.plain_owned_iff_depth_partial", "Verif.Mutex.Props.plain_no_ub_partial", "Verif.Mutex.Props.plain_unlock_by_nonholder_is_undefined"], "note": "Proved in full for recursive mutexes. For plain mutexes mutual exclusion holds when no thread unlocks a mutex it does not hold; the clause that such an unlock fails is false of the code and its negation is proved."},
{"property": "C25", "status": "proved", "theorems": ["Verif.Mutex.Props.wait_gives_up_the_mutex", "Verif.Mutex.Props.wakes_iff_free", "Verif.Mutex.Props.wait_keeps_depth", "Verif.Mutex.Props.recursive_holder_and_count", "Verif.Mutex.Props.plain_holder", "Verif.Mutex.Props.wait_by_nonholder", "Verif.Mutex.Props.wait_by_holder", "Verif.Mutex.Props.recursive_owner_undisturbed"], "note": "Any number of threads, every interleaving of the individual accesses to holder, cnt and the native mutex; wake-ups may happen at any time."},
{"property": "C26", "status": "proved", "theorems": ["Verif.Mvar.Props.mvar_fifo", "Verif.Mvar.Props.put_never_overwrites", "Verif.Mvar.Props.results", "Verif.Mvar.Props.mvar_no_lost_wakeup", "Verif.Mvar.Props.notifies_enough", "Verif.Mvar.Props.swap_put_does_not_wait", "Verif.Monitor.Props.sequential", "Verif.Monitor.Props.effects_once", "Verif.Monitor.Props.no_effect_before", "Verif.Monitor.Props.one_holder"], "note": "Every interleaving of any number of threads, spurious wake-ups included. The mutex and condition are taken to do what C24/C25 prove of them."},
{"property": "C27", "status": "proved", "theorems": ["Verif.Pcbuf.Props.pcbuf_bounded", "Verif.Pcbuf.Props.pcbuf_fifo", "Verif.Pcbuf.Props.pcbuf_fifo_since_clear", "Verif.Pcbuf.Props.results", "Verif.Pcbuf.Props.pcbuf_no_lost_wakeup", "Verif.Pcbuf.Props.notifies_enough", "Verif.Monitor.Props.sequential", "Verif.Monitor.Props.effects_once", "Verif.Monitor.Props.one_holder"], "note": "Every interleaving, spurious wake-ups and time-outs included. The mutex and condition are taken to do what C24/C25 prove of them; time itself is not modelled, a timed call may give up at any time its code can."},
{"property": "C28", "status": "proved", "theorems": ["Verif.Chan.Props.chan_stream", "Verif.Chan.Props.chan_reads_all_once", "Verif.Chan.Props.chan_stream_during_write", "Verif.Chan.Props.write_appends", "Verif.Chan.Props.write_reaches_all", "Verif.Chan.Props.dup_starts_now", "Verif.Chan.Props.read_takes_front", "Verif.Chan.Props.since_is_fixed", "Verif.Chan.Props.end_no_lost_wakeup", "Verif.Chan.Props.end_steps_agree", "Verif.Chan.Props.end_waits_iff"], "note": "Any number of threads and ends, every interleaving at the granularity of one queue operation."},
{"property": "C29", "status": "partial", "theorems": ["Verif.Qsem.Props.qsem_accounting_fails", "Verif.Qsem.Props.qsem_accounting_partial", "Verif.Qsem.Props.qsem_takes_one", "Verif.Qsem.Props.qsem_nonneg", "Verif.Qsem.Props.wait_needs_units", "Verif.Qsem.Props.qsem_no_lost_wakeup", "Verif.Monitor.Props.sequential", "Verif.Monitor.Props.effects_once"], "note": "wait(q) takes one unit whatever q is (qsem.h:59): the full property is refuted; it is proved for wait(1) and what the code does instead is proved in general."},
{"property": "C30", "status": "partial", "theorems": ["Verif.RwMutex.Props.rw_truthful_fails", "Verif.RwMutex.Props.tiny_read_then_unlock_is_undefined", "Verif.RwMutex.Props.tiny_read_inverted", "Verif.RwMutex.Props.rw_exclusive", "Verif.RwMutex.Props.rw_result_partial", "Verif.RwMutex.Props.rw_truthful_partial", "Verif.RwMutex.Props.rw_unlock_own", "Verif.RwMutex.Props.rw_can_acquire", "Verif.RwMutex.Props.rw_invalid"], "note": "read_lock(sec) with sec < 1e-9 returns the raw error code (rwmutex.cpp:99): refuted; proved for all other calls."},
{"property": "C31", "status": "proved", "theorems": ["Verif.Thread.Props.thread_no_ub", "Verif.Thread.Props.start_iff", "Verif.Thread.Props.join_iff", "Verif.Thread.Props.detach_iff", "Verif.Thread.Props.start_join_alternate", "Verif.Thread.Props.no_leak", "Verif.Thread.Props.destroy_detaches"], "note": "All histories of calls on one object by one thread, with every answer of the system; concurrent calls on the same object are outside the model (the code has no lock)."},
{"property": "C32", "status": "proved", "theorems": ["Verif.Endian.Props.store_eq", "Verif.Endian.Props.is_little_iff", "Verif.Endian.Props.reverse_reverses", "Verif.Endian.Props.reverse_involutive", "Verif.Endian.Props.to_little_bytes", "Verif.Endian.Props.to_big_bytes", "Verif.Endian.Props.little_transfer", "Verif.Endian.Props.big_transfer", "Verif.Endian.Props.from_to"], "note": "All overloads and sizes, both byte orders. Values are bit patterns; floating point values that change when copied (signalling NaNs on x87) are outside the model."},
{"property": "C33", "status": "proved", "theorems": ["Verif.Clock.Props.add_exact", "Verif.Clock.Props.sub_exact", "Verif.Clock.Props.add_normal", "Verif.Clock.Props.sub_normal", "Verif.Clock.Props.add_sub_cancel", "Verif.Clock.Props.lt_iff", "Verif.Clock.Props.lt_unnormal_fails", "Verif.Clock.Props.add_unnormal_overflows", "Verif.Clock.Props.undefined_iff"], "note": "For normalised times as stated; the theorems also say what happens to others (wrong order, possible overflow)."},
{"property": "C34", "status": "proved", "theorems": ["Verif.Sampling.Props.sample_distinct", "Verif.Sampling.Props.sample_uniform", "Verif.Sampling.Props.sample_rejects", "Verif.Sampling.Props.sample_with_replacement", "Verif.Sampling.Props.next_int_draws"], "note": "For all draws a functor may return, and in particular those of the library's own generator."},
{"property": "C35", "status": "proved", "theorems": ["Verif.Ratio.Props.construct", "Verif.Ratio.Props.arithmetic_exact", "Verif.Ratio.Props.arithmetic_total", "Verif.Ratio.Props.eq_iff", "Verif.Ratio.Props.overflow_possible", "Verif.Ratio.Props.int_abs_fails"], "note": "For every integer type with a correct abs; overflow is an explicit outcome."},
{"property": "C36", "status": "proved", "theorems": ["Verif.Fft.Props.fft_is_dft", "Verif.Fft.Props.fft_refuses", "Verif.Fft.Props.ifft_fft", "Verif.Fft.Props.fft2d_is_dft2", "Verif.Fft.Props.fft2d_refuses", "Verif.Fft.Props.not_fft2d_defined", "Verif.Fft.Props.fft2dM_is_dft2", "Verif.Fft.Props.fft2dM_refuses", "Verif.Fft.Props.complex_fft", "Verif.Fft.Props.complex_ifft", "Verif.Fft.Props.complex_ifft_fft", "Verif.Fft.Props.complex_fft2d", "Verif.Fft.Props.ifft2d_fft2d", "Verif.Fft.Props.ifft2dM_fft2dM"], "note": "Exact arithmetic; rounding of double is in C104 and C107. fft2d with pitch 0 divides by zero (negation theorem)."},
{"property": "C37", "status": "proved", "theorems": ["Verif.Mt.Props.outputs_mt19937", "Verif.Mt.Props.stream_deterministic"], "note": "Against a separate transcription of MT19937, for all seeds and stream lengths."},
{"property": "C38", "status": "partial", "theorems": ["Verif.Csv.Props.parse_render_exact", "Verif.Csv.Props.parse_render_partial", "Verif.Csv.Props.parse_render_short_partial", "Verif.Csv.Props.parse_render_unended_partial", "Verif.Csv.Props.not_parse_render", "Verif.Csv.Props.not_parse_total", "Verif.Csv.Props.parse_empty"], "note": "The property as stated is false: the terminator of a field can be stored just outside the buffer. parse_render_exact is the exact outcome for every written table."},
{"property": "C39", "status": "proved", "theorems": ["Verif.Xhtml.Props.decode_encode", "Verif.Xhtml.Props.encode_safe", "Verif.Xhtml.Props.encode_injective", "Verif.Xhtml.Props.render_read", "Verif.Xhtml.Props.pretty_read", "Verif.Xhtml.Props.events_nested", "Verif.Xhtml.Props.not_names_safe"], "note": "Trees whose names are names; prim_elem writes raw text by design."},
{"property": "C40", "status": "proved", "theorems": ["Verif.Json.Props.parse_print", "Verif.Json.Props.parse_pretty", "Verif.Json.Props.float_precision_lost"], "note": "Compact and indented, escaped and raw. The property speaks of values without floating point numbers; with them it is proved when their text is read back as the same number, and C88 says exactly what becomes of them."},
{"property": "C41", "status": "partial", "theorems": ["Verif.Json.Props.string_roundtrip", "Verif.Json.Props.nul_truncates", "Verif.Json.Props.escaped_ascii", "Verif.Json.Props.string_text", "Verif.Json.Props.string_buffer_safe"], "note": "Proved for every well-formed UTF-8 string without U+0000; with U+0000 the claim is false of the code (nul_truncates)."},
{"property": "C42", "status": "partial", "theorems": ["Verif.JsonEq.Props.equals_correct", "Verif.JsonEq.Props.equals_refl", "Verif.JsonEq.Props.equals_symm", "Verif.JsonEq.Props.equals_trans_partial", "Verif.JsonEq.Props.eq_not_transitive", "Verif.JsonEq.Props.equals_reorder", "Verif.JsonEq.Props.mergeWith_members", "Verif.JsonEq.Props.merge_members", "Verif.JsonEq.Props.merge_idempotent", "Verif.JsonEq.Props.merge_associative", "Verif.JsonEq.Props.merge_throws"], "note": "Everything but transitivity of ==, which is false: == compares an integer with a floating point number after converting it (eq_not_transitive); without that conversion equality is transitive (equals_trans_partial)."},
{"property": "C43", "status": "partial", "theorems": ["Verif.JsonCast.Props.cast_roundtrip", "Verif.JsonCast.Props.cast_kind", "Verif.JsonCast.Props.cast_vector", "Verif.JsonCast.Props.cast_map", "Verif.JsonCast.Props.cast_class", "Verif.JsonCast.Props.cast_class_missing", "Verif.JsonCast.Props.cast_int_wraps", "Verif.JsonCast.Props.cast_int_not_injective", "Verif.JsonCast.Props.cast_optional_optional", "Verif.JsonCast.Props.default_total", "Verif.JsonCast.Props.default_roundtrip", "Verif.JsonCast.Props.default_scalar", "Verif.JsonCast.Props.default_class", "Verif.JsonCast.Props.default_other", "Verif.JsonCast.Props.default_vector", "Verif.JsonCast.Props.default_vector_keeps_tail", "Verif.JsonCast.Props.default_map", "Verif.JsonCast.Props.default_optional", "Verif.JsonCast.Props.default_optional_string", "Verif.JsonCast.Props.default_optional_int_indeterminate", "Verif.JsonCast.Props.default_optional_long", "Verif.JsonCast.PropsNum.float_good", "Verif.JsonCast.PropsNum.float_roundtrip", "Verif.JsonCast.PropsNum.float_of_double", "Verif.JsonCast.PropsNum.floating_of_integer", "Verif.JsonCast.PropsNum.double_of_long", "Verif.JsonCast.PropsNum.unsigned", "Verif.JsonCast.PropsNum.unsigned_back", "Verif.JsonCast.Props.default_vector_fresh"], "note": "Proved for all nested types with the exceptions the code has: an optional of a nullable type does not come back, int wraps instead of throwing, an unsigned long from 2^63 on is written negative, an optional number read with defaults can read an uninitialised variable."},
{"property": "C44", "status": "partial", "theorems": ["Verif.Json.Props.parse_total", "Verif.Json.Props.parse_sound_partial", "Verif.Json.Props.parse_complete_partial", "Verif.Json.Props.parse_next", "Verif.Json.Props.callbacks_in_order", "Verif.Json.Props.number_deviations", "Verif.Json.Props.short_exponent_lost", "Verif.Json.Props.rejected_samples"], "note": "Total on every byte string; accepted input begins with a text of a grammar that differs from JSON in numbers and white space only; every JSON text is accepted with its value, except a one-digit unsigned exponent at the end of the input. The depth of the call stack is in C98."},
{"property": "C45", "status": "proved", "theorems": ["Verif.UriCode.Props.decode_encode", "Verif.UriCode.Props.decode_any", "Verif.UriCode.Props.encode_correct", "Verif.UriCode.Props.encode_injective", "Verif.UriCode.Props.decode_bad_escape", "Verif.UriCode.Props.decode_short_escape"], "note": "Malformed escapes are not rejected (decode_bad_escape)."},
{"property": "C46", "status": "partial", "theorems": ["Verif.Uri.Props.parse_recompose", "Verif.Uri.Props.parse_sound_partial", "Verif.Uri.Props.parse_complete_partial", "Verif.Uri.Props.parse_safe_partial", "Verif.Uri.Props.parse_ends", "Verif.Uri.Props.parse_rejects_partial", "Verif.Uri.Props.parse_undefined", "Verif.Uri.Props.parse_wrong", "Verif.Uri.Props.parse_wrong_invalid", "Verif.Uri.Props.parse_refuses_escape", "Verif.Uri.Props.literal_known", "Verif.Uri.Props.parse_refuses_ipv6", "Verif.Uri.Props.parse_refuses_name", "Verif.Uri.Props.parse_nul", "Verif.Uri.Props.uri_refused", "Verif.Uri.Props.uri_empty", "Verif.Uri.Props.print_roundtrip_partial", "Verif.Uri.Props.print_exact_partial", "Verif.Uri.Props.print_wrong", "Verif.Uri.Props.print_wrong_authority"], "note": "Recomposition holds for every text; legality, completeness and safety are proved for authorities without percent sign and the hosts the code knows; outside of that the code is wrong, with witnesses."},
{"property": "C47", "status": "partial", "theorems": ["Verif.Ipv4.Props.toStr_correct", "Verif.Ipv4.Props.ofStr_dotted", "Verif.Ipv4.Props.ofStr_sound", "Verif.Ipv4.Props.roundtrip", "Verif.Ipv4.Props.toStr_injective", "Verif.Ipv4.Props.ofStr_undefined", "Verif.Ipv4.Props.ofStr_overflow", "Verif.Ipv4.Props.ofStr_lenient", "Verif.Ipv4.Props.ofStr_none_is_broadcast", "Verif.Ipv4.Props.eq_correct", "Verif.Ipv4.Props.lt_correct", "Verif.Ipv4.Props.lt_order"], "note": "Round trip, buffer and order for all addresses. Reading is characterised for all texts whose numbers fit in an int; with larger ones sscanf is undefined (ofStr_overflow)."},
{"property": "C48", "status": "partial", "theorems": ["Verif.Dns.Props.bounded", "Verif.Dns.Props.answers_genuine", "Verif.Dns.Props.consistent_partial", "Verif.Dns.Props.lru_partial", "Verif.Dns.Props.hit_any_age", "Verif.Dns.Props.never_expires", "Verif.Dns.Props.delete_correct", "Verif.Dns.Props.clear_correct", "Verif.Dns.Props.assertion_fails", "Verif.Dns.Props.wrong_victim", "Verif.Dns.Props.no_size", "Verif.Dns.Props.index_leaks"], "note": "Bounded and genuine in every interleaving; index, assertion and eviction order only for calls that do not overlap; freshness is false of the code (never_expires)."},
{"property": "C49", "status": "partial", "theorems": ["Verif.Socket.Props.output_stream", "Verif.Socket.Props.output_flushed", "Verif.Socket.Props.output_alive", "Verif.Socket.Props.output_accepts", "Verif.Socket.Props.output_prefix", "Verif.Socket.Props.output_fits", "Verif.Socket.Props.write_short", "Verif.Socket.Props.lost_silently", "Verif.SockStream.PropsLarge.small_same", "Verif.SockStream.PropsLarge.large_undefined", "Verif.SockStream.PropsLarge.large_puts_unreported", "Verif.Socket.Props.copy_sends_twice", "Verif.Socket.Props.copy_reads_twice", "Verif.Socket.Props.copy_splits"], "note": "Arbitrary kernel answers per system call. lost_silently shows what success means after a reported failure. Proved for arguments below 2^31 bytes. Lengths are passed as int: longer ones are undefined or cut to their lower 32 bits, and puts then reports success (large_puts_unreported). Proved for sockets that are not copied: a copy sends what is in the output buffer once more (copy_sends_twice)."},
{"property": "C50", "status": "proved", "theorems": ["Verif.Socket.Props.input_stream", "Verif.Socket.Props.input_alive", "Verif.Socket.Props.input_delivers", "Verif.Socket.Props.nextLine_newline"], "note": "Reading calls are compared with the same calls on a plain byte stream, for any kernel and mix of calls."},
{"property": "C51", "status": "partial", "theorems": ["Verif.Http.Props.header_map_partial", "Verif.Http.Props.header_order", "Verif.Http.Props.set_keeps", "Verif.Http.Props.get_inserts"], "note": "All histories. get() of a missing name inserts it (get_inserts), so it is not quite a map; everything else is proved."},
{"property": "C52", "status": "proved", "theorems": ["Verif.Http.Props.header_roundtrip", "Verif.Http.Props.header_sent", "Verif.Http.Props.header_end_to_end", "Verif.Http.Props.header_folded", "Verif.Http.Props.header_lenient", "Verif.Http.Props.header_istream"], "note": "Socket to socket for any chunking of both kernels, for legal fields that fit into a line of 4096 bytes. header_istream: headers read from an istream keep carriage returns."},
{"property": "C53", "status": "partial", "theorems": ["Verif.Http.Props.fixed_body_partial", "Verif.Http.Props.fixed_endless", "Verif.Http.Props.chunked_body_partial", "Verif.Http.Props.chunked_body_eof", "Verif.Http.Props.chunked_eof_wrong", "Verif.Http.Props.chunked_negative", "Verif.Http.Props.body_socket", "Verif.Http.Props.chunked_prefix"], "note": "False of the code for length 0 (fixed_endless) and for chunked bodies with the byte 255 (chunked_eof_wrong); proved for all other bodies. A negative chunk size leads to a read of negative size (chunked_negative)."},
{"property": "C54", "status": "partial", "theorems": ["Verif.Rpc.Props.session_partial", "Verif.Rpc.Props.call_expected", "Verif.Rpc.Props.expected_exists", "Verif.Rpc.Props.add_find", "Verif.Rpc.Props.all_served", "Verif.Rpc.Props.unreachable", "Verif.Rpc.Props.cut_request_not_run", "Verif.Rpc.Props.cut_request_runs", "Verif.Rpc.Props.throwing_hangs", "Verif.Rpc.Props.space_in_name", "Verif.Rpc.Props.ping_is_no_name", "Verif.Rpc.Props.exit_is_no_name", "Verif.Rpc.Props.words"], "note": "Any session of calls, of any types and values, with any table of functions, gives f(args), or the name, or both versions, through connections closed in between, and the server runs each function once. Restricted to names without white space other than <<<PING>>> and <<<EXIT>>>, and functions that return; the code violates the property otherwise (proved). For connections that break at any byte, and timeouts of the server, see C92."},
{"property": "C55", "status": "partial", "theorems": ["Verif.Mprpc.Props.own_reply_partial", "Verif.Mprpc.Props.unpack_args", "Verif.Mprpc.Props.answer_expected", "Verif.Mprpc.Props.answer_notFound", "Verif.Mprpc.Props.answer_mismatch", "Verif.Mprpc.Props.one_result", "Verif.Mprpc.Props.in_order", "Verif.Mprpc.Props.waits_for_nothing", "Verif.Mprpc.Props.dead_stays", "Verif.Mprpc.Props.cut_request_misread", "Verif.Mprpc.Props.cut_reply_misread", "Verif.Mprpc.Props.ids_wrap", "Verif.Mprpc.Props.bad_method_crashes", "Verif.Mprpc.Props.garbage_crashes", "Verif.Mprpc.Props.few_arguments", "Verif.Mprpc.Props.throwing_hangs", "Verif.Mprpc.Props.nested_crashes", "Verif.Mprpc.Props.error_codes"], "note": "Proved for histories in which no write was given up half-way and fewer than 2^32 calls were made. Otherwise false: cut_request_misread, cut_reply_misread and ids_wrap are witnesses. The msgpack library is described by its format."},
{"property": "C56", "status": "partial", "theorems": ["Verif.RpcStop.Props.stopped_no_workers", "Verif.RpcStop.Props.wait_returns_stopped", "Verif.RpcStop.Props.start_starts", "Verif.RpcStop.Props.stop_not_running", "Verif.RpcStop.Props.no_deadlock", "Verif.RpcStop.Props.comes_to_rest", "Verif.RpcStop.Props.stop_stops", "Verif.RpcStop.Props.stop_wakes_partial", "Verif.RpcStop.Props.two_waiters", "Verif.RpcStop.Props.no_workers"], "note": "Transition system over start/stop/wait_until_stopped and the workers, all interleavings and spurious wake-ups. Proved: no deadlock, after stop everything comes to rest in bounded many steps, the server is then stopped and the single waiting thread has returned. False as stated: notify_one leaves all but one waiting thread blocked for ever (two_waiters), and a server without workers never becomes stopped (no_workers)."},
{"property": "C57", "status": "proved", "theorems": ["Verif.Cgi.Props.query_decode", "Verif.Cgi.Props.query_roundtrip", "Verif.Cgi.Props.exec_get", "Verif.Cgi.Props.exec_post", "Verif.Cgi.Props.exec_limit", "Verif.Cgi.Props.exec_short", "Verif.Cgi.Props.query_oddities"], "note": "For GET and POST requests, whatever encoding the items are in; 0 bytes must be escaped."},
{"property": "C58", "status": "partial", "theorems": ["Verif.Cgi.Props.multipart_partial", "Verif.Cgi.Props.exec_multipart_partial", "Verif.Cgi.Props.multipart_terminates", "Verif.Cgi.Props.exec_terminates", "Verif.Cgi.Props.multipart_complete", "Verif.Cgi.Props.undisturbed_noDelimiter", "Verif.Cgi.Props.multipart_swallowed", "Verif.Cgi.Props.nested_crlf", "Verif.Cgi.Props.attribute_wrong", "Verif.Cgi.Props.boundary_missing", "Verif.Cgi.Props.attachedPart_describes", "Verif.Cgi.Props.otherPart_describes", "Verif.Cgi.Props.words"], "note": "Termination and the need of a closing delimiter hold for all inputs. Recovery is false as stated (multipart_swallowed) and proved for parts whose lines beginning with -- are long enough; parts are form values, files and attachments with quoted names and parts of another disposition, which are ignored, not nested ones (nested_crlf: those make an exception)."},
{"property": "C59", "status": "proved", "theorems": ["Verif.Optional.Props.optional_value_semantics", "Verif.Optional.Props.optional_eq_iff", "Verif.Optional.Props.optional_ne_iff", "Verif.Optional.Props.optional_lt_iff", "Verif.Optional.Props.optional_strictWeak"], "note": "Every history over any number of variables, on an explicit heap. Allocation failure and exceptions thrown by T's copy are not modelled; nor is the converting constructor from optional<U>."},
{"property": "C60", "status": "partial", "theorems": ["Verif.Lru.Props.lru_setStores_fails", "Verif.Lru.Props.lru_setStores_partial"], "note": "False as stated: set on a present key is ignored (negation proved). Partial: holds exactly for absent keys."},
{"property": "C61", "status": "proved", "theorems": ["Verif.Sampling.Props.next_int_lt", "Verif.Sampling.Props.next_int_onto", "Verif.Sampling.Props.next_int_range"], "note": "IEEE binary64 with rounding to nearest even is modelled exactly for the one inexact multiplication."},
{"property": "C62", "status": "partial", "theorems": ["Verif.Socket.Props.connect_fresh_partial", "Verif.Socket.Props.reconnect_fresh_partial", "Verif.Socket.Props.stale_output", "Verif.Socket.Props.stale_input", "Verif.Socket.Props.broken_forever"], "note": "False of the code: close() leaves both buffers as they are. Proved: it holds for the first connection and when the buffers are empty; counterexamples for the rest."},
{"property": "C63", "status": "partial", "theorems": ["Verif.HttpMsg.Props.message_on_wire", "Verif.HttpMsg.Props.beginning_on_wire", "Verif.HttpMsg.Props.success_partial", "Verif.HttpMsg.Props.lost_unreported", "Verif.HttpMsg.Props.request_received_partial", "Verif.HttpMsg.Props.response_received_partial", "Verif.HttpMsg.Props.request_end_to_end_partial", "Verif.HttpMsg.Props.response_end_to_end_partial", "Verif.HttpMsg.Props.request_chunked_partial", "Verif.HttpMsg.Props.response_chunked_partial", "Verif.HttpMsg.Props.response_until_close", "Verif.HttpMsg.Props.fields_added", "Verif.HttpMsg.Props.empty_body_wrong", "Verif.HttpMsg.Props.long_line_drops_header", "Verif.HttpMsg.Props.uri_dropped", "Verif.HttpMsg.Props.code_indeterminate", "Verif.HttpMsg.Props.version_overflow", "Verif.HttpMsg.Props.length_junk", "Verif.HttpMsg.Props.version_any_case", "Verif.HttpMsg.Props.words"], "note": "Proved for messages with a body, or without one at the end of the connection, for URIs that operator<< writes faithfully and first lines that fit into the receiver's line buffer. The full claim is false of the code: success is reported for a lost message without a body of 8192 or 8193 bytes (lost_unreported), an empty body with Content-Length 0 does not end (empty_body_wrong), long first lines drop the header (long_line_drops_header)."},
{"property": "C64", "status": "partial", "theorems": ["Verif.Lexical.Props.signed_cast", "Verif.Lexical.Props.unsigned_cast", "Verif.Lexical.Props.refused", "Verif.Lexical.Props.int_roundtrip", "Verif.Lexical.Props.text_canonical", "Verif.Lexical.Props.int_int", "Verif.Lexical.Props.accepts_junk"], "note": "Proved for all types, integers and strings; what fails is that trailing characters are ignored and that unsigned types accept a minus sign (accepts_junk). Streams are modelled as libstdc++ has them in the C locale."},
{"property": "C65", "status": "partial", "theorems": ["Verif.CgiServer.Props.answer_of_output", "Verif.CgiServer.Props.served_partial", "Verif.CgiServer.Props.exception_unanswered", "Verif.CgiServer.Props.too_long", "Verif.CgiServer.Props.variables_wrong", "Verif.CgiServer.Props.chunked_form_lost", "Verif.CgiServer.Props.status_wrong", "Verif.CgiServer.Props.header_split", "Verif.CgiServer.Props.broken_chunks_accepted", "Verif.CgiServer.Props.chunked_form_always_lost"], "note": "Proved for requests as in C63 and bodies with a Content-Length, for any program with state and any earlier connections. Missing: requests in chunks (the form of every POST in chunks without a length is lost, chunked_form_always_lost) and outputs whose values have line ends (which split the header, header_split). Several threads: C111. Names of variables keep hyphens (variables_wrong); exceptions leave the client without an answer (exception_unanswered)."},
{"property": "C66", "status": "partial", "theorems": ["Verif.HttpStream.Props.fetched_partial", "Verif.HttpStream.Props.no_answer", "Verif.HttpStream.Props.other_scheme", "Verif.HttpStream.Props.from_server_partial", "Verif.HttpStream.Props.port_wraps", "Verif.HttpStream.Props.too_much_sent", "Verif.HttpStream.Props.no_scheme", "Verif.HttpStream.Props.capitals_refused", "Verif.HttpStream.Props.host_without_port", "Verif.HttpStream.Props.bad_url", "Verif.HttpStream.Props.cut_short", "Verif.HttpStream.Props.error_page", "Verif.HttpStream.Props.brackets"], "note": "Proved for legal http URLs with a host that the parser knows (C46) and no percent sign in the authority, and for every network outside of that host and port. Missing: ports beyond 65535, which wrap (port_wraps); capitals in the scheme, which are refused (capitals_refused); texts that are no URL, which are not refused (bad_url); replies that are cut short, which are not noticed (cut_short); byte 255 in chunked bodies (C53)."},
{"property": "C67", "status": "partial", "theorems": ["Verif.Calendar.Props.calendar_of_clock", "Verif.Calendar.Props.shows_unique", "Verif.Calendar.Props.round_trip", "Verif.Calendar.Props.once_fixed", "Verif.Calendar.Props.make_undefined", "Verif.Calendar.Props.make_partial", "Verif.Calendar.Props.make_depends", "Verif.Calendar.Props.far_future_undefined", "Verif.Calendar.Props.default_no_date"], "note": "Both conversions are proved for every zone, with mktime a parameter that inverts localtime as the C standard says. The constructor from year, month and so on always reads isdst before it has a value (make_undefined); make_partial says that it is right if the memory happens to hold the right flag, and make_depends that the date can be wrong otherwise."},
{"property": "C68", "status": "partial", "theorems": ["Verif.Sql.Props.from_to", "Verif.Sql.Props.from_to_calendar", "Verif.Sql.Props.from_same_partial", "Verif.Sql.Props.from_complete", "Verif.Sql.Props.string_swallows", "Verif.Sql.Props.execute_partial", "Verif.Sql.Props.run_args", "Verif.Sql.Props.execute_ten", "Verif.Sql.Props.fetch_partial", "Verif.Sql.Props.fetch_stops_partial", "Verif.Sql.Props.fetch_mismatch_partial", "Verif.Sql.Props.fetch_many_refused", "Verif.Sql.Props.fetch_many_undefined"], "note": "execute with ten arguments writes behind its vector (execute_ten); fetch_row with eight to ten variables refuses rows of that many columns and reads behind rows of one less (fetch_many_refused, fetch_many_undefined); anything that is no string, also NULL, is the empty string for a string variable (string_swallows); an exception leaves the variables before changed (fetch_stops_partial). The rest is proved."},
{"property": "C69", "status": "partial", "theorems": ["Verif.Transact.Props.pg_all_or_nothing", "Verif.Transact.Props.pg_error_undoes", "Verif.Transact.Props.pg_commits", "Verif.Transact.Props.pg_unwinding_discards", "Verif.Transact.Props.pg_runs_once", "Verif.Transact.Props.my_runs_once", "Verif.Transact.Props.my_all_or_nothing_partial", "Verif.Transact.Props.pg_caught_error_lost", "Verif.Transact.Props.pg_caught_loss_splits", "Verif.Transact.Props.pg_lost_terminates", "Verif.Transact.Props.my_loss_splits", "Verif.Transact.Props.my_commit_lost", "Verif.Transact.Props.my_commit_refused", "Verif.Transact.Props.my_begin_refused", "Verif.Transact.Props.my_prepare_undefined", "Verif.Transact.Props.control_words"], "note": "PostgreSQL: proved for every loss of the connection, for bodies that let exceptions through. MySQL: false when the connection is lost or BEGIN/COMMIT refused (witnesses my_loss_splits, my_commit_lost, my_commit_refused, my_begin_refused), proved while it stands. The servers and client libraries are modelled, not verified."},
{"property": "C70", "status": "partial", "theorems": ["Verif.Postgres.Props.pieces_exist", "Verif.Postgres.Props.query_numbered", "Verif.Postgres.Props.argument_told", "Verif.Postgres.Props.arguments_told", "Verif.Postgres.Props.value_read", "Verif.Postgres.Props.rows_fetched", "Verif.Postgres.Props.execute_result", "Verif.Postgres.Props.own_query_partial", "Verif.Postgres.Props.time_round_trip_partial", "Verif.Postgres.Props.time_undefined", "Verif.Postgres.Props.time_misread", "Verif.Postgres.Props.zero_cut", "Verif.Postgres.Props.small_lost", "Verif.Postgres.Props.literal_changed", "Verif.Postgres.Props.unknown_column_empty", "Verif.Postgres.Props.prepared_before_transaction", "Verif.Postgres.Props.prepared_two", "Verif.PgFloat.Props.one_double", "Verif.PgFloat.Props.column_nearest", "Verif.PgFloat.Props.column_sign", "Verif.PgFloat.Props.column_refused", "Verif.PgFloat.Props.special_blocks", "Verif.PgFloat.Props.round_trip", "Verif.PgFloat.Props.kept", "Verif.PgFloat.Props.large_kept", "Verif.PgFloat.Props.echo"], "note": "Queries, arguments (with the exact decimal text of doubles) and rows of boolean, integer, floating point and text columns proved; doubles come back exactly if they are the rounding of a number with ten digits behind the point (Verif/PgFloat). False: prepared statements share one name (prepared_before_transaction, prepared_two), reading times is undefined (time_undefined, time_misread), other doubles change (echo), NaN and infinite numbers cannot be fetched and block the rows after them (special_blocks)."},
{"property": "C71", "status": "partial", "theorems": ["Verif.Mysql.Props.argument_bound", "Verif.Mysql.Props.arguments_bound", "Verif.Mysql.Props.wrong_number_refused", "Verif.Mysql.Props.unknown_refused", "Verif.Mysql.Props.null_not_null", "Verif.Mysql.Props.rows_fetched", "Verif.Mysql.Props.round_trip", "Verif.Mysql.Props.varchar_refused", "Verif.Mysql.Props.unsigned_misread", "Verif.Mysql.Props.no_bool", "Verif.Mysql.Props.time_undefined", "Verif.Mysql.Props.time_round_trip_partial"], "note": "Proved for integers, doubles, strings of any length and NULL columns of the supported types, and for the arguments except NULL. The property fails for NULL as an argument (null_not_null), VARCHAR columns (varchar_refused), unsigned columns (unsigned_misread), truth values (no_bool) and times that are read (time_undefined, time_round_trip_partial). The client library is modelled as far as it fills and reads the buffers."},
{"property": "C72", "status": "proved", "theorems": ["Verif.JsonArchive.Props.archive_roundtrip", "Verif.JsonArchive.Props.wrong_type_passed", "Verif.JsonArchive.Props.number_takes_more"], "note": "For values that survive the conversion (C43: int range, distinct keys, no optional of optional) and the printing (C40: well-formed strings without NUL, floating point numbers whose text reads back). number_takes_more shows why the line feed is needed."},
{"property": "C73", "status": "proved", "theorems": ["Verif.Any.Props.any_is_a_variable", "Verif.Any.Props.any_owns", "Verif.Any.Props.scoped_is_a_variable", "Verif.Any.Props.scoped_owns", "Verif.Any.Props.scoped_reset_self"], "note": "Objects with pointers into a heap that refuses use after delete and double delete; the programs are arbitrary sequences of operations. Values are atomic (their destructors do not throw). scoped_reset_self proves the exception: reset to the pointer that is already there leaves a dangling pointer."},
{"property": "C74", "status": "partial", "theorems": ["Verif.Mmapper.Props.mapper_is_a_view_partial", "Verif.Mmapper.Props.mapper_owns_partial", "Verif.Mmapper.Props.move_unmaps", "Verif.Mmapper.Props.move_assignment_unmaps", "Verif.Mmapper.Props.move_closes_another"], "note": "Proved for all programs without moves. For moves the property is false and its negation is proved: the move constructor swaps a temporary with the source, and the temporary's destructor closes the descriptor and unmaps the memory that the new object points to. Files do not change their size; an address stands for a whole mapping."},
{"property": "C75", "status": "partial", "theorems": ["Verif.MathVec.Props.componentwise", "Verif.MathVec.Props.module_laws", "Verif.MathVec.Props.assignments", "Verif.MathVec.Props.inner_laws", "Verif.MathVec.Props.cross2_laws", "Verif.MathVec.Props.cross3_laws", "Verif.MathVec.Props.field_laws", "Verif.MathVec.Props.norm_laws", "Verif.MathVec.Props.order_laws", "Verif.MathVec.Props.array_laws", "Verif.MathVec.Props.text_roundtrip", "Verif.MathVec.Props.read_failure", "Verif.MathVec.PropsNum.rounded_once", "Verif.MathVec.PropsNum.exact_laws", "Verif.MathVec.PropsNum.inner_error", "Verif.MathVec.PropsNum.norm_not_negative", "Verif.MathVec.PropsNum.not_associative", "Verif.MathVec.PropsNum.not_distributive", "Verif.MathVec.PropsNum.not_undone", "Verif.MathVec.PropsNum.norm_lost", "Verif.MathVec.PropsNum.cross_not_zero", "Verif.MathVec.PropsNum.normalize_zero"], "note": "The laws are proved for exact arithmetic. For double and float each operation is rounded once, some laws hold exactly (exact_laws), the inner product has a bound for its error (inner_error), and the other laws fail (not_associative, not_distributive, not_undone, norm_lost, cross_not_zero); normalizing zero gives NaN (normalize_zero). The outer product % of the classes with arrays is not modelled: it names members x, y and z that these classes lack and does not compile when used. read_failure: a vector whose text is bad in a component other than the last is assigned values that were never stored."},
{"property": "C76", "status": "partial", "theorems": ["Verif.Locks.Props.held_iff_locked_partial", "Verif.Locks.Props.nothing_left_partial", "Verif.Locks.Props.exclusive_partial", "Verif.Locks.Props.can_lock_partial", "Verif.Locks.Props.copy_takes_over", "Verif.Locks.Props.tiny_read_leaks", "Verif.Locks.Props.tiny_read_not_exclusive", "Verif.Locks.Props.negative_times", "Verif.Locks.Props.one_instance", "Verif.Locks.Props.one_maker", "Verif.Locks.Props.instance_progress", "Verif.Locks.Props.timespec"], "note": "The code violates the property for read locks with a time limit below a nanosecond (tiny_read_leaks, tiny_read_not_exclusive); the _partial theorems exclude those. Objects are destroyed by the thread that made them. Each call of a lock is one step; that the mutexes and read-write locks behave so is the subject of C24 and C30. Times are exact numbers, not doubles."},
{"property": "C77", "status": "partial", "theorems": ["Verif.SockStream.Props.like_memory", "Verif.SockStream.Props.reads_like_memory", "Verif.SockStream.Props.reads_beginning", "Verif.SockStream.Props.good_means_done", "Verif.SockStream.Props.sends_beginning", "Verif.SockStream.Props.refuses", "Verif.SockStream.Props.begins_anew_partial", "Verif.SockStream.Props.null_refuses_partial", "Verif.SockStream.Props.stale_byte", "Verif.SockStream.Props.unset_undefined", "Verif.SockStream.Props.null_flush_undefined", "Verif.SockStream.Props.null_reads", "Verif.SockStream.PropsLarge.small_same", "Verif.SockStream.PropsLarge.large_undefined", "Verif.SockStream.PropsLarge.large_stream_bad"], "note": "Proved for all operations, inputs and kernels on one connection. Not true of the code: a byte peeked at on the old connection is read from the new one after setsock or connect (stale_byte, so begins_anew is partial); a stream without a socket follows a null pointer (unset_undefined), and so does flush on a null socket (null_flush_undefined, so null_refuses is partial). Writes of 2^31 bytes and more, whose length is passed as int, are undefined or cut, and then reported (large_undefined, large_stream_bad)."},
{"property": "C78", "status": "partial", "theorems": ["Verif.Descr.Props.tidy_partial", "Verif.Descr.Props.all_closed_partial", "Verif.Descr.Props.create_twice_leaks", "Verif.Descr.Props.create_twice_harms", "Verif.Descr.Props.interrupted_close", "Verif.Descr.Props.accept_leaks", "Verif.Descr.Props.open_tells", "Verif.Descr.Props.server_close_tells", "Verif.Descr.Props.accepted_connected", "Verif.Descr.Props.copy_harms", "Verif.Descr.Props.copy_shares", "Verif.Descr.Props.copy_closes_another"], "note": "Proved for all programs, outcomes and interleavings with other threads' descriptors, except where the code is wrong, which is proved too: a second server_socket::create leaks the first descriptor, and if it fails the destructor closes a descriptor of somebody else; an interrupted close is repeated on a number that may belong to somebody else; server_socket::accept loses the connection if the descriptor its constructor made cannot be closed; stream_socket and server_socket can be copied, and then a descriptor is closed twice, whatever happens (copy_harms). Not modelled: exceptions, several threads on one object, descriptors that the user takes with release()."},
{"property": "C79", "status": "partial", "theorems": ["Verif.Reflect.Props.describes", "Verif.Reflect.Props.text_tells_partial", "Verif.Reflect.Props.text_ambiguous", "Verif.Reflect.Props.same_text_same_wire_partial", "Verif.Reflect.Props.peers_understand_partial", "Verif.Reflect.Props.float_ambiguous", "Verif.Reflect.Props.traverse_all", "Verif.Reflect.Props.interface", "Verif.Reflect.PropsStreams.has_form", "Verif.Reflect.PropsStreams.streams_arrive", "Verif.Reflect.PropsStreams.same_text_same_form_partial", "Verif.Reflect.PropsStreams.peers_understand_streams_partial", "Verif.Reflect.PropsStreams.never_ends"], "note": "Proved for all types, also with streams in them, except that texts are ambiguous when names contain ) , or } (text_ambiguous) and that float, double and long double have the same description but not the same form (float_ambiguous). Streams are received in unused ones (what happens otherwise is in C96), and no two streams of a value are copies of each other."},
{"property": "C80", "status": "partial", "theorems": ["Verif.MpServer.Props.defined_partial", "Verif.MpServer.Props.return_means_ended_partial", "Verif.MpServer.Props.run_starts_partial", "Verif.MpServer.Props.running_listens_partial", "Verif.MpServer.Props.stop_ends_partial", "Verif.MpServer.Props.stop_ends_timed", "Verif.MpServer.Props.silent_client", "Verif.MpServer.Props.failed_run_join", "Verif.MpServer.Props.restart_without_join", "Verif.MpServer.Props.destroyed_too_early", "Verif.MpServer.Props.create_before_join", "Verif.MpServer.Props.stop_overtaken", "Verif.MpServer.Props.serves_foreign", "Verif.MpServer.Props.no_workers"], "note": "Proved for servers used properly (Spec.Proper: join before create, run or the destructor; no create or run while a stop is going on; no join after a failed run); for each condition a theorem shows what the code does otherwise. False even then: without timeout a silent client holds up join for ever (silent_client), and a worker can accept on a descriptor that stop has closed and somebody else has reused (serves_foreign)."},
{"property": "C81", "status": "partial", "theorems": ["Verif.Page.Props.page_partial", "Verif.Page.Props.one_page", "Verif.Page.Props.page_reads", "Verif.Page.Props.page_served_partial", "Verif.Page.Props.error_page", "Verif.Page.Props.copy_undefined", "Verif.Page.Props.empty_value", "Verif.Page.Props.tag_macros", "Verif.Page.Props.attr_macros", "Verif.Page.Props.macros_distinct", "Verif.Page.Props.macro_names"], "note": "Holds if the compiler leaves out the copy of tag_inserter, which C++ before C++17 does not promise; without that every page with a tag is undefined (copy_undefined). page_served_partial is subject to the limits of C65."},
{"property": "C82", "status": "partial", "theorems": ["Verif.Sysstat.Props.total_partial", "Verif.Sysstat.Props.free_partial", "Verif.Sysstat.Props.free_at_most_total_partial", "Verif.Sysstat.Props.load_first", "Verif.Sysstat.Props.others_ignored", "Verif.Sysstat.Props.kilobytes", "Verif.Sysstat.Props.free_undefined", "Verif.Sysstat.Props.nothing_known", "Verif.Sysstat.PropsLoad.load_value", "Verif.Sysstat.PropsLoad.load_unknown"], "note": "Proved for every file in the kernel's format with numbers that fit. Partial because the code violates the claim: kB are taken for 1000 bytes (kilobytes), 2^31 kB and more of free or cached memory are undefined (free_undefined), errors are not reported (nothing_known)."},
{"property": "C83", "status": "partial", "theorems": ["Verif.CgiRun.Props.cgi_served_partial", "Verif.CgiRun.Props.too_long", "Verif.CgiRun.Props.fcgi_partial", "Verif.CgiRun.Props.fcgi_stateless_partial", "Verif.CgiRun.Props.exception_ends", "Verif.CgiRun.Props.anybody_ends", "Verif.CgiRun.Props.large_undefined"], "note": "Proved for all calls, programs and sequences of requests. Partial because the code violates the claim: an exception, which any client can cause, ends the FastCGI program and with it all later requests (exception_ends, anybody_ends); answers of 2^31 bytes are undefined (large_undefined); some uploads are not understood (as in C58)."},
{"property": "C84", "status": "partial", "theorems": ["Verif.ServerOpts.Props.listens", "Verif.ServerOpts.Props.refused_partial", "Verif.ServerOpts.Props.in_range", "Verif.ServerOpts.Props.modes_partial", "Verif.ServerOpts.Props.server_listens_partial", "Verif.ServerOpts.Props.runs", "Verif.ServerOpts.Props.start_failure", "Verif.ServerOpts.Props.number_undefined", "Verif.ServerOpts.Props.mistakes_ignored", "Verif.ServerOpts.Props.modes_missed", "Verif.ServerOpts.Props.failure_hidden", "Verif.ServerOpts.Props.never_destroyed", "Verif.ServerOpts.Props.numbers_unchecked"], "note": "Proved for all command lines of the grammar. Partial because the code violates the claim: numbers of 2^31 are undefined (number_undefined), unknown options are passed over (mistakes_ignored), flags that are joined or abbreviated do not choose the mode (modes_missed), and a failed start hangs in the destructor (failure_hidden)."},
{"property": "C85", "status": "proved", "theorems": ["Verif.SharedPtr.Props.never_fails", "Verif.SharedPtr.Props.owned_alive", "Verif.SharedPtr.Props.held_usable", "Verif.SharedPtr.Props.once", "Verif.SharedPtr.Props.last_destroys", "Verif.SharedPtr.Props.count_exact", "Verif.SharedPtr.Props.freed_iff", "Verif.SharedPtr.Props.drains", "Verif.SharedPtr.Props.lock_works", "Verif.SharedPtr.Props.fromWeak_works", "Verif.SharedPtr.Props.empty_weak", "Verif.SharedPtr.Props.fromThis_works", "Verif.SharedPtr.Props.copies", "Verif.SharedPtr.Props.assigns", "Verif.SharedPtr.Props.deleter_kept", "Verif.SharedPtr.Props.no_leak", "Verif.SharedPtr.Props.circles_leak", "Verif.SharedPtr.Props.taken_twice"], "note": "Proved for all programs and interleavings that take each raw pointer over once (taken_twice shows why). The pointers are wrappers of the standard library's, whose counters are modelled as the standard prescribes them. Circles are excluded by the claim; circles_leak shows why."},
{"property": "C86", "status": "proved", "theorems": ["Verif.JsonDoc.Props.sound_kept", "Verif.JsonDoc.Props.never_stuck", "Verif.JsonDoc.Props.const_reads", "Verif.JsonDoc.Props.const_lookup", "Verif.JsonDoc.Props.lookup_there", "Verif.JsonDoc.Props.lookup_fails", "Verif.JsonDoc.Props.lookup_creates", "Verif.JsonDoc.Props.failed_lookup_writes", "Verif.JsonDoc.Props.add_shows", "Verif.JsonDoc.Props.addAs_shows", "Verif.JsonDoc.Props.assign_member_shows", "Verif.JsonDoc.Props.assign_elem_shows", "Verif.JsonDoc.Props.assign_var", "Verif.JsonDoc.Props.wrong_type", "Verif.JsonDoc.Props.tells", "Verif.JsonDoc.Props.copy_shares", "Verif.JsonDoc.Props.clone_same", "Verif.JsonDoc.Props.clone_apart", "Verif.JsonDoc.Props.apart_untouched", "Verif.JsonDoc.Props.no_loop_kept", "Verif.JsonDoc.Props.prints", "Verif.JsonDoc.Props.printed_shows", "Verif.JsonDoc.Props.loop_never_prints", "Verif.JsonDoc.Props.self_add", "Verif.JsonDoc.Props.merge_shows", "Verif.JsonDoc.Props.merge_shares", "Verif.JsonDoc.Props.zero_undefined", "Verif.JsonDoc.Props.defined"], "note": "Memory only grows in the model: when values are destroyed is C85. References kept across statements (json& r = x[0]; x.add(y);) are not in the language of programs; merge_with with a user's function is modelled on values in C42."},
{"property": "C87", "status": "partial", "theorems": ["Verif.Duration.Props.sleep_exact", "Verif.Duration.Props.sleep_not_positive", "Verif.Duration.Props.sleep_too_long", "Verif.Duration.Props.timespec_valid", "Verif.Duration.Props.deadline_near", "Verif.Duration.Props.deadline_past", "Verif.Duration.Props.deadline_mono", "Verif.Duration.Props.deadline_too_far", "Verif.Duration.Props.rw_wait", "Verif.Duration.Props.pcbuf_gives_up", "Verif.Duration.Props.pcbuf_same_end", "Verif.Duration.Props.timeout_exact", "Verif.Duration.Props.timeval_valid", "Verif.Duration.Props.timeout_negative", "Verif.Duration.Props.mp_timeout_negative", "Verif.Duration.Props.mp_timeout_very_negative", "Verif.Duration.Props.timeout_undefined", "Verif.Duration.Props.timeout_not_forever", "Verif.Duration.Props.tiny_timeout_forever", "Verif.Duration.Props.timeout_forever_fails", "Verif.Duration.Props.expired_iff", "Verif.Duration.Props.no_timeout", "Verif.Duration.Props.clock_back_expires", "Verif.Double.Props.round_exact", "Verif.Double.Props.round_nearest", "Verif.Double.Props.ties_to_even", "Verif.Double.Props.round_num", "Verif.Double.Props.round_mono", "Verif.Double.Props.toInt_defined", "Verif.Double.Props.special_values"], "note": "The code violates parts of the claim, with witnesses: a positive timeout below a microsecond becomes no timeout (timeout_forever_fails, tiny_timeout_forever), times beyond the integer range are undefined, and a stream times out at once if the clock is set back (clock_back_expires). Everything else is proved for IEEE 754 double arithmetic, which is modelled exactly (Verif.Double). What the system does with the times is not modelled."},
{"property": "C88", "status": "partial", "theorems": ["Verif.FloatText.Props.written_rounded", "Verif.FloatText.Props.read_nearest", "Verif.FloatText.Props.too_large_refused", "Verif.FloatText.Props.document_back", "Verif.FloatText.Props.pretty_document_back", "Verif.FloatText.Props.document_same", "Verif.FloatText.Props.whole_becomes_integer", "Verif.FloatText.Props.digits_lost", "Verif.FloatText.Props.subnormal_refused"], "note": "Proved with exact models of the formatting (%.12g) and of strtod: every document of finite, not subnormal numbers comes back with each number rounded to 12 digits and then stays the same. False of the code for whole numbers, which come back as integers (whole_becomes_integer), and for subnormal numbers, whose text is refused (subnormal_refused)."},
{"property": "C89", "status": "partial", "theorems": ["Verif.RandReal.Props.real_exact", "Verif.RandReal.Props.real_uniform", "Verif.RandReal.Props.real_to", "Verif.RandReal.Props.real_to_tiny", "Verif.RandReal.Props.real_in", "Verif.RandReal.Props.real_in_end", "Verif.RandReal.Props.real_in_overflow", "Verif.RandReal.Props.int_below", "Verif.RandReal.Props.gaussian_finite", "Verif.RandReal.Props.gaussian_pair", "Verif.RandReal.Props.generator_use", "Verif.RandReal.Props.gaussian_mean", "Verif.RandReal.Props.gaussian_scaled", "Verif.RandReal.Props.clock_seed"], "note": "log, sqrt, sin, cos and pi are parameters about which only bounds are assumed; that the numbers are normally distributed is not stated. next_double(a,b) can return b, next_double(a) can return a for a up to 2^-1022 (real_in_end, real_to_tiny), against the documented half-open intervals."},
{"property": "C90", "status": "proved", "theorems": ["Verif.CsvIter.Props.loop_rows", "Verif.CsvIter.Props.while_rows", "Verif.CsvIter.Props.end_late", "Verif.CsvIter.Props.copy_keeps", "Verif.CsvIter.Props.post_increment", "Verif.CsvIter.Props.post_increment_copied", "Verif.CsvIter.Props.no_dangling", "Verif.CsvIter.Props.assign_dangles", "Verif.CsvIter.Props.assign_plain", "Verif.CsvIter.Props.copy_of_copy", "Verif.CsvIter.Props.move_together", "Verif.CsvIter.Props.end_unnoticed", "Verif.CsvIter.Props.equal_iff", "Verif.CsvIter.Props.at_end", "Verif.CsvIter.Props.inc_end", "Verif.CsvIter.Props.not_at_end"], "note": "Outside the statement: assignment copies pointers into the source's buffer and can dangle (assign_dangles); a copy of a copy, and so *it++ when the compiler does not elide the copy, holds another row (copy_of_copy, post_increment_copied)."},
{"property": "C91", "status": "partial", "theorems": ["Verif.DbConnect.Props.params_arrive", "Verif.DbConnect.Props.quoted_arrive", "Verif.DbConnect.Props.empty_password", "Verif.DbConnect.Props.injection", "Verif.DbConnect.Props.empty_host", "Verif.DbConnect.Props.empty_swallows", "Verif.DbConnect.Props.password_lost", "Verif.DbConnect.Props.mysql_params", "Verif.DbConnect.Props.pg_handles", "Verif.DbConnect.Props.pg_reconnect_result", "Verif.DbConnect.Props.mysql_handles", "Verif.DbConnect.Props.mysql_reconnect_result"], "note": "The code violates 'exactly these parameters' for PostgreSQL when a value is empty or has white space, backslashes or a leading quote (empty_host, empty_swallows, injection, password_lost). How libpq reads a connection string is a specification written from its documentation."},
{"property": "C92", "status": "partial", "theorems": ["Verif.RpcFault.Props.at_most_once", "Verif.RpcFault.Props.ends", "Verif.RpcFault.Props.expire_ready", "Verif.RpcFault.Props.before_ready", "Verif.RpcFault.Props.session_explained", "Verif.RpcFault.Props.session_ends", "Verif.RpcFault.Props.recovers", "Verif.RpcFault.Props.sound_add", "Verif.RpcFault.Props.sound_x", "Verif.RpcFault.Props.bytes_x", "Verif.RpcFault.Props.length_x", "Verif.RpcFault.Props.error_after_call", "Verif.RpcFault.Props.error_without_call", "Verif.RpcFault.Props.version_unchecked", "Verif.RpcFault.Props.told", "Verif.RpcFault.Props.wrong_version", "Verif.RpcFault.Props.undefined_version", "Verif.RpcFault.Props.thrown", "Verif.RpcFault.Props.throwing_hangs", "Verif.RpcFault.Props.throwing_times_out"], "note": "For connections that break after any number of bytes in either direction, refused connections, idle connections closed by the server, and writes that fail: any session calls each function at most once for each request and in order, results are those of these calls, reports about functions that were not called are true, and every call ends if the versions agree and the server has a timeout or the function throws no rpc_error. Restricted to functions whose types are those the client thinks, that end with a result or rpc_error, and types without sets of arithmetic values. The code violates more: an error does not tell whether the function ran, cut version reports are misread or undefined behaviour, and functions without arguments run unchecked when the version is cut off (all proved). Networks that lose bytes silently are not modelled."},
{"property": "C93", "status": "partial", "theorems": ["Verif.LexFloat.Props.one_number", "Verif.LexFloat.Props.read_nearest", "Verif.LexFloat.Props.refused", "Verif.LexFloat.Props.edges", "Verif.LexFloat.Props.text_rounded", "Verif.LexFloat.Props.back", "Verif.LexFloat.Props.six_digits_kept", "Verif.LexFloat.Props.digits_lost", "Verif.LexFloat.Props.infinite_refused", "Verif.LexFloat.Props.double_of_float", "Verif.LexFloat.Props.float_of_double", "Verif.LexFloat.Props.widening_changes", "Verif.LexFloat.Props.float_of_int", "Verif.LexFloat.Props.int_of_float", "Verif.LexFloat.Props.int_kept", "Verif.LexFloat.Props.first_digit_only"], "note": "Proved for all texts and all finite numbers of float and double. What fails: casts to integer types give the first digit from a million on and below one ten thousandth (int_of_float, first_digit_only), digits beyond the sixth are lost even between float and double (digits_lost, widening_changes), and texts with an e after the number are refused while other junk is not (edges). Streams are modelled as libstdc++ has them in the C locale; the sign of zero and long double are left out."},
{"property": "C94", "status": "partial", "theorems": ["Verif.GenPhp.Props.sends_partial", "Verif.GenPhp.Props.receives_partial", "Verif.GenPhp.Props.client_partial", "Verif.GenPhp.Props.call_partial", "Verif.GenPhp.Props.other_version_refused", "Verif.GenPhp.Props.eight_bytes_dropped", "Verif.GenPhp.Props.eight_bytes_hang", "Verif.GenPhp.Props.missing_type_fatal", "Verif.GenPhp.Props.one_bool_spoils", "Verif.GenPhp.Props.single_precision_wrong", "Verif.GenPhp.Props.empty_string_false", "Verif.GenPhp.Props.split_string_cut", "Verif.GenPhp.Props.long_string_cut", "Verif.GenPhp.Props.class_keys_dropped", "Verif.GenPhp.Props.float_keys_merge", "Verif.GenPhp.Props.same_name_mixed", "Verif.GenPhp.Props.not_found"], "note": "Holds for the types listed, for results without empty strings and answers that come in one piece (sends_partial, receives_partial, client_partial, call_partial). Refuted beyond that: integers of eight bytes are dropped and the call hangs, one bool, char or stream anywhere makes the client unusable, float arguments arrive as other numbers, empty strings become FALSE, strings in several pieces or over 16384 bytes are cut, map keys that are floats merge and those that are classes vanish, only servers with version 1 answer, classes with the same name in different interfaces are mixed. The PHP runtime is modelled from its documented behaviour (arrays, keys, pack/unpack, one system read per fread)."},
{"property": "C95", "status": "partial", "theorems": ["Verif.GenHs.Props.both_keep", "Verif.GenHs.Props.sends_partial", "Verif.GenHs.Props.receives_partial", "Verif.GenHs.Props.negative_read_wrong", "Verif.GenHs.Props.wide_characters_cut", "Verif.GenHs.Props.short_integers_wrong", "Verif.GenHs.Props.single_precision_wrong", "Verif.GenHs.Props.special_doubles_changed", "Verif.GenHs.Props.client_partial", "Verif.GenHs.Props.missing_type_fatal", "Verif.GenHs.Props.bad_names_fatal", "Verif.GenHs.Props.only_first_interface", "Verif.GenHs.Props.call_partial", "Verif.GenHs.Props.other_version_refused", "Verif.GenHs.Props.not_found", "Verif.GenHs.Props.eight_bytes_hang"], "note": "Values, interfaces and calls of Haskell clients; Haskell's compiler is modelled by the checks that can fail for what genrpc writes. Missing: maps with other keys than integers, characters and strings, broken connections, several threads."},
{"property": "C96", "status": "partial", "theorems": ["Verif.TmpStream.Props.never_dangling", "Verif.TmpStream.Props.no_descriptor_leak", "Verif.TmpStream.Props.stream_survives", "Verif.TmpStream.Props.copies_share", "Verif.TmpStream.Props.no_file_left_partial", "Verif.TmpStream.Props.own_name_partial", "Verif.TmpStream.Props.others_files_stay_partial", "Verif.TmpStream.Props.assignment_leaves_file", "Verif.TmpStream.Props.copy_removes_file_of_other", "Verif.TmpStream.Props.failed_file", "Verif.TmpStream.Props.wrapped_no_files", "Verif.TmpStream.Props.send_receive", "Verif.TmpStream.Props.second_send_empty", "Verif.TmpStream.Props.written_file_not_sent", "Verif.TmpStream.Props.old_contents_stay", "Verif.TmpStream.Props.strings_pile_up", "Verif.TmpStream.Props.drained_file_stays_at_end"], "note": "Objects, temporary files and positions of streams. Missing: errors while reading and writing files, streams of clients that end before the object, other processes that remove files, several threads."},
{"property": "C97", "status": "partial", "theorems": ["Verif.Genrpc.Props.arguments", "Verif.Genrpc.Props.last_language", "Verif.Genrpc.Props.last_signature", "Verif.Genrpc.Props.options_by_position", "Verif.Genrpc.Props.status", "Verif.Genrpc.Props.generates_php_partial", "Verif.Genrpc.Props.php_not_written", "Verif.Genrpc.Props.generates_hs_partial", "Verif.Genrpc.Props.haskell_directory", "Verif.Genrpc.Props.suffix_anywhere", "Verif.Genrpc.Props.signature_kept_partial", "Verif.Genrpc.Props.deletes_program", "Verif.Genrpc.Props.deletes_signature", "Verif.Genrpc.Props.unsupported", "Verif.Genrpc.Props.no_interface", "Verif.Genrpc.Props.compile_error", "Verif.Genrpc.Props.generator_error", "Verif.Genrpc.Props.unwritable_undefined", "Verif.Genrpc.Props.shell_interprets", "Verif.Genrpc.Props.option_split", "Verif.Genrpc.Props.marks", "Verif.Genrpc.Props.special_text"], "note": "Proved for the usual form of the command, headers with one suffix, and options without characters for the shell. False beyond that: for languages that are listed but not implemented a file is deleted, the header itself if it has no suffix (deletes_program, deletes_signature); Haskell files go to another directory (haskell_directory); a temporary file is left after an error (compile_error, generator_error); the exit status is 0 whatever fails (status); options of the form --x, options behind the header and a language in the middle are misread. The compiler is a parameter."},
{"property": "C98", "status": "partial", "theorems": ["Verif.JsonPos.Props.error_described", "Verif.JsonPos.Props.position_kept", "Verif.JsonPos.Props.error_local", "Verif.JsonPos.Props.value_local", "Verif.JsonPos.Props.end_of_data_at_end", "Verif.JsonPos.Props.callbacks_begin_value", "Verif.JsonPos.Props.outcomes", "Verif.JsonPos.Props.same_parser", "Verif.JsonPos.Props.nesting_overflows", "Verif.JsonPos.Props.few_brackets_fit", "Verif.JsonPos.Props.more_room_same", "Verif.JsonPos.Props.room_needed", "Verif.JsonPos.Props.what_text", "Verif.JsonPos.Props.what_cut", "Verif.JsonPos.Props.cut_behind_space", "Verif.JsonPos.Props.wrong_character_shown"], "note": "Place and message of every parse error, locality, callbacks before an exception, the exact depth of nesting for every stack. For every stack a short text overflows it (nesting_overflows); a text cut behind white space is reported as a wrong character (cut_behind_space); messages show characters modulo 256 (wrong_character_shown). Lines and columns are unbounded numbers (int in the code); frames are counted in calls of parse_impl."},
{"property": "C99", "status": "partial", "theorems": ["Verif.Serial.PropsCost.success_linear", "Verif.Serial.PropsCost.any_bytes_bounded", "Verif.Serial.PropsCost.four_bytes_fill", "Verif.Serial.PropsCost.four_bytes_string", "Verif.Serial.PropsCost.four_bytes_turns", "Verif.Serial.PropsCost.not_linear"], "note": "True for reading that succeeds (success_linear). False otherwise: four bytes make 2^32-1 elements of any type (four_bytes_fill, not_linear), because the loops do not look whether the archive has failed; any_bytes_bounded is the bound that holds. Costs are calls of istream::read; the memory of one element and the doubling of a vector's capacity are not counted."},
{"property": "C100", "status": "partial", "theorems": ["Verif.SparseFile.Props.saved_partial", "Verif.SparseFile.Props.writer_tells", "Verif.SparseFile.Props.closed_row_num", "Verif.SparseFile.Props.destroyed_without_table", "Verif.SparseFile.Props.old_table_new_data", "Verif.SparseFile.Props.full_disk_unreported", "Verif.SparseFile.Props.table_unwritten", "Verif.SparseFile.Props.names_clash", "Verif.SparseFile.Props.closed_reader", "Verif.SparseFile.Props.no_table", "Verif.SparseFile.Props.no_data_unreported", "Verif.SparseFile.Props.transposed", "Verif.SparseFile.Props.failed_empties", "Verif.SparseFile.Props.no_data_transposed"], "note": "Proved for matrices that the program ends with close or by opening another one, on a disk with room. The code violates the rest: the destructor writes no table (destroyed_without_table, old_table_new_data), a full disk and an unwritable table are not reported (full_disk_unreported, table_unwritten), a reader without data reports success (no_data_unreported), a transposition that fails empties its target (failed_empties). One writer at a time; nobody else writes."},
{"property": "C101", "status": "proved", "theorems": ["Verif.UText.Props.pieces", "Verif.UText.Props.text_survives", "Verif.UText.Props.cut_inside", "Verif.UText.Props.always_text", "Verif.UText.Props.errors_marked", "Verif.UText.Props.c_string", "Verif.UText.Props.c_string_cut", "Verif.UText.Props.first_char", "Verif.UText.Props.no_end_agrees", "Verif.UText.Props.no_end_terminated", "Verif.UText.Props.no_end_passes", "Verif.UText.Props.no_end_runs_out", "Verif.UText.Props.written", "Verif.UText.Props.word_read", "Verif.UText.Props.end_clears", "Verif.UText.Props.words_come_back", "Verif.UText.Props.not_come_back", "Verif.UText.Props.classes"], "note": "Streams are byte lists in the C locale that accept every byte; field width is not modelled (operator<< ignores it). The conversion without an end pointer is proved safe on terminated text and undefined on text cut inside a character; empty texts and texts with blanks do not come back from a stream (proved)."},
{"property": "C102", "status": "partial", "theorems": ["Verif.JsonCast.Props.into_fresh", "Verif.JsonCast.Props.into_failed_kept_partial", "Verif.JsonCast.Props.into_failed_class", "Verif.JsonCast.Props.into_not_atomic", "Verif.JsonCast.Props.into_again"], "note": "The first sentence is proved for all types. The second is proved for everything but classes (numbers, strings, vectors, maps, optionals, with classes inside); for classes it is false: members are read in place one after the other, so those before the one that fails are changed (into_not_atomic), and into_failed_class says exactly what is left."},
{"property": "C103", "status": "partial", "theorems": ["Verif.CodeFile.Props.owned_partial", "Verif.CodeFile.Props.all_freed_partial", "Verif.CodeFile.Props.apart_partial", "Verif.CodeFile.Props.file_read_partial", "Verif.CodeFile.Props.file_roundtrip_partial", "Verif.CodeFile.Props.missing_file", "Verif.CodeFile.Props.no_room", "Verif.CodeFile.Props.short_not_reported", "Verif.CodeFile.Props.vanished_file_undefined", "Verif.CodeFile.Props.large_file_cut", "Verif.CodeFile.Props.large_file_refused", "Verif.CodeFile.Props.copy_frees_twice", "Verif.CodeFile.Props.copy_reads_freed", "Verif.CodeFile.Props.assign_leaks"], "note": "Ownership, isolation and reading of whole files are proved for programs without copies of decoders. Violated: a copy frees and reads freed memory, an assignment leaks, a short stream is not reported, sizes of files are taken modulo 2^32, and a file that vanishes between open and stat makes attach write in front of the array."},
{"property": "C104", "status": "proved", "theorems": ["Verif.Fft.Props.float_fft", "Verif.Fft.Props.float_roundtrip", "Verif.Fft.Props.float_refuses", "Verif.Fft.Props.float_overflow", "Verif.Fft.Props.accurate_exists"], "note": "IEEE double with every operation rounded by itself; the library functions are parameters with a bound on their error. One-dimensional transforms; without room to overflow the results can be infinite (float_overflow)."},
{"property": "C105", "status": "partial", "theorems": ["Verif.Ratio.Props.program_partial", "Verif.Ratio.Props.program_total_partial", "Verif.Ratio.Props.divided_by_itself", "Verif.Ratio.Props.self_division_wrong", "Verif.Ratio.Props.text_tells", "Verif.Ratio.Props.text_reads"], "note": "False for a /= a, which gives a denominator of 0 for every numerator but 0, 1 and -1 (divided_by_itself, self_division_wrong); proved for all programs without it."},
{"property": "C106", "status": "partial", "theorems": ["Verif.LruRef.Props.refs_refine", "Verif.LruRef.Props.reference_good", "Verif.LruRef.Props.reference_lost", "Verif.LruRef.Props.copy_partial", "Verif.LruRef.Props.copy_capacity_one", "Verif.LruRef.Props.copy_fails"], "note": "The part about references is proved. Storing a value got from the cache is proved for capacities of at least 2 and false for capacity 1: the entry is destroyed to make room before its value is read."},
{"property": "C107", "status": "proved", "theorems": ["Verif.Fft.Props.float_fft2d", "Verif.Fft.Props.float_fft2dM", "Verif.Fft.Props.float_roundtrip2d"], "note": "As C104: every operation rounded by itself, the library functions are parameters with a bound on their error (accurate_exists)."},
{"property": "C108", "status": "partial", "theorems": ["Verif.Fft.Props.refuse_same", "Verif.Fft.Props.refused_matrix_unchanged", "Verif.Fft.Props.refused_unchanged_partial", "Verif.Fft.Props.late_refusal", "Verif.Fft.Props.refused_changed"], "note": "Proved for matrices. False for linear arrays: a number of rows that is not a power of two is refused only after all rows have been transformed in place (late_refusal); refused_unchanged_partial covers all other reasons."},
{"property": "C109", "status": "partial", "theorems": ["Verif.RpcPool.Props.in_order", "Verif.RpcPool.Props.answers", "Verif.RpcPool.Props.one_thread", "Verif.RpcPool.Props.first_come", "Verif.RpcPool.Props.all_served_partial", "Verif.RpcPool.Props.stop_ends_partial", "Verif.RpcPool.Props.locked_out", "Verif.RpcPool.Props.held_up", "Verif.RpcPool.Props.turn_comes_partial", "Verif.RpcPool.Props.as_if_alone", "Verif.RpcPool.Props.not_alone", "Verif.RpcPool.Props.kept_waiting"], "note": "Order, answers and one thread per connection hold in all histories. That every client is served, and that all threads end after stop, is proved if clients close their connections or the server has a timeout; it is false otherwise: locked_out shows n silent clients (an rpc_client keeps its connection until it is destroyed) locking out every other client for ever, and held_up shows that one silent client keeps a server from ending. A request is one step on the data of the program; that the functions are safe to run at once is up to the user. There is no bound on the wait that does not depend on how much the others ask, timeout or not (kept_waiting)."},
{"property": "C110", "status": "partial", "theorems": ["Verif.RpcNest.Props.all_answered_partial", "Verif.RpcNest.Props.flat_answered", "Verif.RpcNest.Props.deadlock", "Verif.RpcNest.Props.too_deep_never", "Verif.RpcNest.Props.threads_bounded", "Verif.RpcNest.Many.Props.all_answered_partial", "Verif.RpcNest.Many.Props.locked_up", "Verif.RpcNest.Many.Props.threads_bounded", "Verif.RpcNest.Many.Props.too_deep_never"], "note": "Proved if there are more threads than the calls of all waiting clients go deep below their first, all together; this bound is sharp: at equality there is an order of events after which nobody is ever answered again (deadlock), and a call deeper than the number of threads is never answered (too_deep_never). For several servers that call each other (Many): proved if each has more threads than calls to it may wait for calls inside of them, for all clients together; two servers can lock each other up whatever number of threads they have (locked_up). A timeout of the server does not help, as rpc_client has none. Each call has its own connection; results are not modelled here (C54)."},
{"property": "C111", "status": "partial", "theorems": ["Verif.CgiServer.Pool.Props.each_thread", "Verif.CgiServer.Pool.Props.one_thread_partial", "Verif.CgiServer.Pool.Props.forgetful_partial", "Verif.CgiServer.Pool.Props.forgotten", "Verif.CgiServer.Pool.Props.counter_wrong"], "note": "Each thread serves the connections that it takes as a server of its own would, each once (each_thread, so C65 holds for them); with one thread (one_thread_partial) or for programs whose answers do not depend on what they remember (forgetful_partial) the claim holds. It is false otherwise: each thread has a copy of the program, so any second client may be answered as though the first had never been there (forgotten, counter_wrong). Not modelled: data outside of the object, such as globals or files."},
{"property": "C112", "status": "proved", "theorems": ["Verif.MpNest.Props.all_end", "Verif.MpNest.Props.threads_bounded", "Verif.MpNest.Props.failure_spreads", "Verif.MpNest.Props.thrown_unanswered", "Verif.MpNest.Props.caught_answered", "Verif.MpNest.Props.runs_for_nobody", "Verif.MpNest.Props.runs_again", "Verif.MpNest.Props.at_most_once", "Verif.MpNest.Props.exactly_once_partial", "Verif.MpNest.Props.enough_threads"], "note": "Callers with a timeout, each call on a connection of its own; functions may catch the exceptions of the calls they make or not. That timeouts do come is the meaning of a state at rest: one where nobody can give up any more. Results and server-side timeouts are not modelled here (C54, C55, C109)."}
]}
