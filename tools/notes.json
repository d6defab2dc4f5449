{
 "C02": {
  "note": "Full statement refuted (least value of a type at least as wide as int, two's complement, generic path: signed overflow). C02_round_trip_iff: the round trip holds for all other representable values and for no other value."
 },
 "C04": {
  "note": "Full statement refuted for the same single value as C02. C04_signed_wire_format_exact decides every representable value: the code is written, or the conversion overflows."
 },
 "C07": {
  "note": "Full statement refuted (one two's complement pattern; bool bytes other than 0/1 with the endianess macro). Exact characterisation for signed integers, totality for unsigned integers and for every DecodeSafe type. C07_decoding_exact decides every type and every byte sequence: which bytes cannot be decoded and why, and the value otherwise."
 },
 "C08": {
  "status": "proved",
  "note": "Stated for bytes whose decoding is defined (see C07). C08_stable: decoded values of any type (not only integers) can be encoded again and decode as themselves."
 },
 "C09": {
  "note": "Full statement refuted at the least value (C02). C09_peers_agree_iff decides every value and every pair of supported platforms; C09_never_wrong: otherwise the writer or the reader faults, never a wrong value."
 },
 "C10": {
  "note": "Full statement refuted on big-endian hosts with exactly one applicable macro. Proved for supported combinations; unrestricted for unsigned integers and for integers of eight bytes. C10_byte_order_macro_only_* and C10_signed_macro_only_* say exactly what happens in the remaining cases: integers of at most four bytes are lost."
 },
 "C14": {
  "note": "Conforming compilers reject arrays of user-extended types, although the library announces them as serializable: the array overloads of read_as and write_as come before those for user-extended types, which lookup does not find. C14_conforming: for the types which remain, no array has padded elements. The other theorems describe the code if the overloads are found (lookup at instantiation): full statement refuted (stride and announced size are sizeof), proved when serialized size <= sizeof."
 },
 "C15": {
  "note": "Exact layout for all types without arrays of padded user types, in particular for all the types accepted by conforming compilers (C14_conforming). C15_gap_counterexample shows the uninitialised gap otherwise.",
  "status": "proved"
 },
 "C23": {
  "note": "Full statement refuted (implicit assignment rebinds the view). Copy proved for views of different classes. `C23_same_class_exact` says what the assignment of views of the same class does, for all views, and `C23_alias` what follows for later accesses."
 },
 "C25": {
  "note": "Full statement refuted (iterator overloads copy sizeof(T) bytes). Proved when object size = serialized size. `C25_get_exact` and `C25_set_exact` say for which contents and positions the accesses are within bounds, and what they do."
 },
 "C29": {
  "note": "Format proved. Payload length refuted for user-extended types whose object size differs from their serialized size; proved otherwise, and for all built-in types. C29_payload_length_iff gives the exact condition."
 },
 "C33": {
  "note": "Same effect proved without restriction. Announced sizes refuted for user-extended types with padding; exact condition proved."
 },
 "C41": {
  "note": "Full statement refuted (decoding of a bool byte, C07). Proved for readable arguments, for every stream when types decode from any bytes; responses must fit (C43). C41_framing_exact decides every stream, with no hypothesis on the bytes or on the size of the responses: the packets are served in order up to the first one which cannot be decoded or whose response is too large, which faults."
 },
 "C42": {
  "note": "Full statement refuted (after a callback has thrown). Without caught exception: complete list of the possible faults, all due to C43, C07 or user code. C42_overrun_iff and C42_faults_any: all the histories, exceptions being caught."
 },
 "C43": {
  "note": "Full statement refuted (output buffer sized from the parameters). Proved when responses fit; C43_overflow proves the overrun for every other keyring. C43_overflow_iff: exactly when the bytes of a request overrun the output buffer."
 },
 "C46": {
  "note": "Full statement refuted because of C43. Refinement of the abstract machine proved; C46_departures covers all keyrings, up to the faults of C43 and C07. C46_exact: for any keyring and any calls, the outcome (faults included) is that of a machine with a bounded output queue."
 },
 "C47": {
  "note": "Full statement refuted because of C43. Equivalence proved for keyrings whose responses fit; C47_discipline_needed shows what happens without draining. C47_exact: for any keyring, both kinds have the same outcome, faults included, unless a response overruns the output buffer of the double buffered one."
 },
 "C51": {
  "note": "Full statement refuted: a throwing callback leaves the dispatcher stuck (C51_stuck, any keyring). C51_exact, C51_forever, C51_histories: what happens in all the histories, exceptions being caught."
 },
 "C56": {
  "note": "Full statement refuted: the handler may complete a request without response between the test and the fetch. Proved when the handler does not complete a request (any point), when there is nothing to read, and right after the test. Exactly: C56_resolution_exact (byte and state at every point when the handler completes a request) and C56_serializable_iff (which interruptions are equivalent to running the handler before or after)."
 },
 "C58": {
  "note": "Full statement refuted: between the resets of m_obuf_bottom and m_obuf_next the handler sends a stale byte or reads out of bounds (C58_stale_byte, any keyring). Exactly: C58_resets_exact (between the resets), C58_output_exact (while the response is being output, including between the increment of m_obuf_bottom and the assignment of the byte, where it sends a stale byte). Proved to be harmless after any byte of the response, and between the resets when the previous response is half read."
 },
 "C54": {
  "note": "Full statement refuted: encode returns uninitialised trailing bytes (or writes out of bounds) for user-extended types whose object size differs from their serialized size (as C29); exact result given by C54_encode_exact, proved as stated otherwise. decode: proved, a short response raises. Client.call: proved end to end through a dispatcher on another platform. pybind11 conversions not modelled."
 },
 "C55": {
  "note": "Full statement refuted: an action built from an lvalue stores a reference to it (C55_lvalue_current_value, C55_lvalue_dangling). Proved for rvalues."
 },
 "C59": {
  "note": "Refinement of the abstract machine whose callbacks may be changed between any two calls. C59_departures: without the hypotheses on the keyring, the only departures are those of C43 and C07. C59_foreign_keys: the Python class does not check that the key belongs to the keyring; with another key, writes out of bounds."
 },
 "C60": {
  "note": "Sufficient (C60_custom) and necessary (C60_input_needed, C60_output_needed). The buffers are either one and the same or disjoint; see C116 for any other overlap."
 },
 "C61": {
  "note": "Sequences of calls in blocking and pipelined modes, over a lossless link; callee with a buffered or an unbuffered dispatcher. The functions do not use the link themselves."
 },
 "C62": {
  "note": "Directly (C62_hooked, C62_hooked_unbuffered) and through reply (C62_replied). The action kept by the caller is a parameter of the function registered for replies (in the test, a global variable)."
 },
 "C63": {
  "note": "Full statement refuted: get() returns a null byte when there is nothing left, and the handlers send it. Exact bytes given by C63_one_request_partial; proved as stated as long as the response has not been completely sent."
 },
 "C64": {
  "note": "Whole response past the end of the array is the fault oobWrite. Buffered dispatcher: between two packets."
 },
 "C65": {
  "note": "Implicit integral and boolean conversions only. Values which the representation of the signed mode cannot hold are excluded, as in C16 and C17."
 },
 "C66": {
  "note": "False: with_hook accepts any invocable object and the action reads the parameter of the hook, not the type returned by the function. Proved when both types are the same; C66_exact states what is read in general."
 },
 "C67": {
  "note": "The object is called as an rvalue when it was given as a temporary, even though the action calls it several times; this cannot select another overload since overloaded operator() are rejected."
 },
 "C68": {
  "note": "`C68_request`, `C68_sequence`: the library does not use the object of the action after the call of the callback. `C68_captures`: exactly when a callback which has replaced actions can still use its own captures."
 },
 "C69": {
  "note": "False for action_features::ANY: the action being invoked is destroyed before its callback is read. `C69_history_partial`, in terms of the replacements made before and during the request: the callback is called, except when it is a member of its action (`ANY`, given to `replace` as an rvalue) and this action is replaced while the arguments are read; then the behaviour is always undefined. `C69_replaced_by_source_partial`, `C69_destroyed`: the same for any effect of the source on the actions."
 },
 "C70": {
  "note": "serialize is a sequence of set on the view. C70_as_fields justifies the model of user types used by the other claims."
 },
 "C71": {
  "note": "The checksum is any function of the bytes of the data."
 },
 "C72": {
  "note": "Full statement false (`C72_full_statement_is_false`: 1.5 is read back as 1). Proved: exactly which number is read back in sign-magnitude, and in ones' complement for non-negative numbers and `double`; every negative `float` is read back as -2^64 in ones' complement; offset binary reads a non-negative number back as the nearest multiple of 256 (`float`) or 2048 (`double`) and never reads a negative number back as negative; the bits are preserved when the macro matches. `C72_twos_complement`: cannot be written in two's complement without the macro; what bytes are read as.",
  "status": "partial"
 },
 "C73": {
  "note": "Keyrings with 256 functions or more have indices of several bytes, for which filler bytes are not enough (C40_loading: a filler byte may be kept as the first byte of an index). Fault-free callbacks, decodable arguments (C07) and large enough output buffers (C43) are assumed as elsewhere."
 },
 "C74": {
  "note": "Full statement false (`C74_full_statement_is_false`: a function of a namespace makes the import fail). Proved for every list of global functions and objects, also for `declare_dispatcher`; proved that functions of namespaces (`C74_qualified`), overloads (`C74_overloads`) and a second keyring with the same signature at the same index (`C74_bound_once`) always make it fail; a function may be exposed under the name of another (`C74_misnamed`). `C74_regex` says which name is found in any text whatever, as the match of the regular expression.",
  "status": "partial"
 },
 "C75": {
  "note": "Proved for every interleaving, by an invariant which carries the exact number of steps left."
 },
 "C76": {
  "note": "Proved for buffered and unbuffered callees. `C76_boundary` shows that the condition on the number of functions is needed."
 },
 "C77": {
  "note": "Proved. `C77_truncated` shows what is not claimed: a transmission which ends in the middle of a request is not discarded, its request is completed by the next transmission."
 },
 "C78": {
  "note": "Proved, for functions and callbacks which return (no exception) and return types of at least one byte. The documentation names the architecture without giving its program: the one which is modelled is made after test/buffered_dispatcher.cpp, with a queue of actions in place of one action."
 },
 "C01": {
  "note": "No restriction: every valid platform, every format."
 },
 "C03": {
  "note": "No restriction: every valid platform, every format; encoding, decoding and bool."
 },
 "C05": {
  "note": "Frame for every write which goes through (C05_write_frame); exact content on the domain (C05_write_footprint). Hypotheses: valid platform, Supported format (false only on a big-endian host where exactly one of the two macros matches), values in the domain Safe (C02)."
 },
 "C06": {
  "note": "On what the code writes (C06_unambiguous), also for types with gaps, and on the serialized form (C06_wire_injective). Hypotheses: valid platform, Supported format (false only on a big-endian host where exactly one of the two macros matches), values in the domain Safe (C02)."
 },
 "C11": {
  "note": "Exhaustive: all the other values, then the least value in each mode and for each width relative to int. Supported format only (C10)."
 },
 "C12": {
  "note": "Hypotheses: valid platform, Supported format (false only on a big-endian host where exactly one of the two macros matches), values in the domain Safe (C02). Elements whose object size is their serialized size, which covers all the built-in types (C12_builtin_types_are_packed); see C14 for the others."
 },
 "C13": {
  "note": "Hypotheses: valid platform, Supported format (false only on a big-endian host where exactly one of the two macros matches), values in the domain Safe (C02). Fields without arrays of padded user types (C14)."
 },
 "C16": {
  "note": "Hypotheses: valid platform, Supported format (false only on a big-endian host where exactly one of the two macros matches), values in the domain Safe (C02)."
 },
 "C17": {
  "note": "Hypotheses: valid platform, Supported format (false only on a big-endian host where exactly one of the two macros matches), values in the domain Safe (C02)."
 },
 "C18": {
  "note": "No hypothesis on the platform, the format or the value: any set which goes through, whatever the storage holds."
 },
 "C19": {
  "note": "Hypotheses: valid platform, Supported format (false only on a big-endian host where exactly one of the two macros matches), values in the domain Safe (C02)."
 },
 "C20": {
  "note": "Hypotheses: valid platform, Supported format (false only on a big-endian host where exactly one of the two macros matches), values in the domain Safe (C02)."
 },
 "C21": {
  "note": "Access: no hypothesis at all. Bytes: of a tuple made of values; types without gaps."
 },
 "C22": {
  "note": "The elements of the source must be decodable, and encodable in the format of the destination. Views of the same class are the subject of C23. Which assignments compile is the subject of C86."
 },
 "C24": {
  "note": "The callback is a function to any type, which may be the type of effectful computations; see C24_invoke_effect for the calls and their effects."
 },
 "C26": {
  "note": "For the number of callbacks (C26_index_type) and for the keys made from a keyring (C26_keyring)."
 },
 "C27": {
  "note": "Both implementations of find (C++11 and C++17)."
 },
 "C28": {
  "note": "Each algorithm is also proved equal to what it is meant to compute. C28_clip: both reject a range out of the list, except that the C++17 one accepts an empty range anywhere."
 },
 "C30": {
  "note": "The two sides may be built on different platforms. Hypotheses: valid platform, Supported format (false only on a big-endian host where exactly one of the two macros matches), values in the domain Safe (C02)."
 },
 "C31": {
  "note": "C31_read_from: every source (stateful, throwing) and any bytes, for return types which can be decoded from any bytes; C31_read_value: every return type, on the encoding of a value. Hypotheses: valid platform, Supported format (false only on a big-endian host where exactly one of the two macros matches), values in the domain Safe (C02)."
 },
 "C32": {
  "note": "C32_action_effect: any bytes, for parameters which can be decoded from any bytes, exceptions included; C32_action_call and C32_action_throw: every signature, on encodings of arguments. C32_action_input_only: the form of operator() without destination. The sizes are those of `action`; those of no_storage_action are the subject of C33."
 },
 "C34": {
  "note": "Default-constructed and moved-from actions. C34_sizes_counterexample: input_size() of such an action dereferences a null pointer."
 },
 "C35": {
  "note": "Caller and callee on two different platforms; every source and destination. Hypotheses: valid platform, Supported format (false only on a big-endian host where exactly one of the two macros matches), values in the domain Safe (C02)."
 },
 "C36": {
  "note": "For any dispatcher, and for the dispatcher of a keyring."
 },
 "C37": {
  "note": "Other indices: whatever follows on the stream, valid or not."
 },
 "C38": {
  "note": "C38_get_action: no hypothesis."
 },
 "C39": {
  "note": "Reachable: any history of calls since the construction in which no exception of a callback has been caught (C51). Setting: supported format and signatures, parameters whose serialized size is not greater than sizeof (C42). If the response does not fit in the output buffer, C43_overflow says what happens."
 },
 "C40": {
  "note": "The output is preserved if there is a separate output buffer; with a single buffered dispatcher the index is stored over it (C47_discipline_needed)."
 },
 "C44": {
  "note": "C44_same_as_puts holds for any bytes, including those which cannot be decoded: both sides have then the same fault."
 },
 "C45": {
  "note": "Refinement of a queue, for any interleaving; throwing putters included."
 },
 "C48": {
  "note": "C48_resolved and C48_not_resolved: any reachable state. C48_request: comparison with the unbuffered dispatcher between two packets, exceptions and faults included."
 },
 "C49": {
  "note": "ReplyKey: the key takes an array of n bytes, as the code requires. The bytes after the response are those of an uninitialised array."
 },
 "C50": {
  "note": "C50_moved_to: any state, any calls. C50_moved_from: what happens to the object moved from."
 },
 "C52": {
  "note": "Any point of the packet, any getter afterwards."
 },
 "C53": {
  "note": "Hook given as an object (with_hook(f)) or as a template argument (with_hook<f>()); hooks whose parameter is of another type are the subject of C66. Hypotheses: valid platform, Supported format (false only on a big-endian host where exactly one of the two macros matches), values in the domain Safe (C02)."
 },
 "C57": {
  "note": "Hypotheses: valid platform, Supported format (false only on a big-endian host where exactly one of the two macros matches). Zero belongs to the domain of every format."
 },
 "C79": {
  "note": "Proved, for functions which return (no exception). `C79_writing_first` decides, for a caller which writes everything first, whether it ever gets a response. `C79_replaced_response` is an execution in which the callee does not wait."
 },
 "C80": {
  "note": "The full statement is false (`C80_full_statement_is_false`): a keyring accepts objects, no dispatcher can be built from it. `C80_functions` proves the statement for functions; `C80_objects_partial` says what works for objects (keys, replace) and what does not; `C80_exact` is the exact criterion. Missing: generic lambdas, variadic functions. `C80_keys`: a keyring is accepted exactly when each key has a signature. `C80_pointers_partial`: variables which hold a pointer to a function behave like objects; `C80_replace`: nothing else may replace a callback.",
  "status": "partial"
 },
 "C81": {
  "note": "The full statement is false (`C81_full_statement_is_false`: a getter which returns an int). The other theorems say exactly which getters and putters keys and actions accept; `C81_keys_accept_more` is the inclusion which does hold.",
  "status": "partial"
 },
 "C82": {
  "note": "The last sentence is false (`C82_full_statement_is_false`: a module which imports another one while it is being loaded); everything else is proved, `C82_exact` being the outcome of any import. `C82_found_partial` is the last sentence for modules which import no other one. Missing: what the other finders do, `cppimport` itself.",
  "status": "partial"
 },
 "C83": {
  "note": "The full statement is false (`C83_full_statement_is_false`: a virtual destructor is enough). `C83_offset` says for which classes the subobject is at the address of the object with the layout of the Itanium C++ ABI; `C83_plain_partial` proves the claim for these, `C83_exact` that the first byte put is undefined behaviour for all the others. Missing: virtual bases, components of the same type which compete for an address, other ABIs.",
  "status": "partial"
 },
 "C84": {
  "note": "The full statement is false (`C84_full_statement_is_false`: `const int &f()` cannot be served by `action`). `C84_tuples`, `C84_served` and `C84_keys` say exactly which tuples, functions and calls compile; `C84_by_value_partial` proves the claim for parameters by value or const reference and results by value; `C84_refused` and `C84_arrays_not_checked` list what is refused although it is announced. Missing: volatile types, `std::array` of const elements, classes which cannot be copied.",
  "status": "partial"
 },
 "C85": {
  "note": "Induction on the sequence of writes. `C85_history` relates the memory to a plain array of bytes, `C85_set_byte` says which elements a byte belongs to, `C85_bounds` that the only limit is that of the memory, `C85_fill` that received bytes are decoded."
 },
 "C86": {
  "note": "The full statement is false (`C86_full_statement_is_false`: variables of another format are refused; `C86_plain_arrays`: so are elements `T[N]`, from temporaries too). `C86_assignments` says exactly which assignments compile, `C86_sources` that variables and constants can be copied to the very same class only, `C86_assignment_partial` proves the claim for temporaries without `T[N]`, `C86_get_then_set` and `C86_constness` are about elements, `C86_copies` about the effect of what compiles. Missing: views over iterators which are not pointers. `C86_set_function`: `upd::set` in addition needs an lvalue.",
  "status": "partial"
 },
 "C87": {
  "note": "The full statement is false (`C87_full_statement_is_false`): `put` by the callback of the largest packet is out of the input buffer. `C87_refinement` says exactly what callbacks get, by simulation with callbacks which do not refer to the dispatcher: `put` is LOADING_PACKET and the byte is lost while there is room, an overrun after that (`C87_overrun`); `read_from` never returns (`C87_read_from`); the other functions find nothing. `C87_lost`: when no buffer is overrun, nothing put by a callback is ever part of a packet. `C87_quiet_partial` proves the claim for callbacks which give no byte to the dispatcher. Missing: callbacks which catch what such a call throws; callbacks which put bytes, for which it is false.",
  "status": "partial"
 },
 "C88": {
  "note": "`C88_request` and `C88_dispatcher` characterise when writing a request or a response throws; `C88_write_to` and `C88_process` say what is left in a buffered dispatcher, `C88_attempts` what any number of attempts gives to the putters (`C88_attempts_return`: they all end), `C88_reply` that nothing is left after `reply`."
 },
 "C89": {
  "note": "The full statement is false (`C89_full_statement_is_false`): when one of CC and CXX only is set, both are replaced (`C89_one_compiler`); each nested process adds one more `ccache` (`C89_history` gives the exact value, `C89_nested`: never the same environment); a failed import leaves the hook in `sys.meta_path` (`C89_failed`; `C89_hooks`: exactly one along any history). `C89_kept_partial` proves the claim when both variables are set; `C89_outcome` says which imports fail; `C89_include` is the claim on the include directories, in full.",
  "status": "partial"
 },
 "C90": {
  "note": "`C90_selection`, `C90_selection_one`, `C90_refused`, `C90_refused_one`, `C90_both` and `C90_both_one` cover all combinations of kinds and constness; `C90_dispatcher`, `C90_unknown_index`, `C90_action`, `C90_action_input`, `C90_key_write`, `C90_key_read`, `C90_buffered`, `C90_buffered_read` and `C90_buffered_write` say what the calls do on streams of any kind (buffered dispatchers between two packets); `C90_append`, `C90_queue`, `C90_overwrite` and `C90_reread` what several calls on one iterator do; `C90_pointer` relates this to C64."
 },
 "C91": {
  "note": "`C91_encode`, `C91_encode_refused`, `C91_encode_unique`, `C91_encode_range`, `C91_decode`, `C91_decode_refused` for keys; `C91_function`, `C91_well_typed` and `C91_replace` for Python functions as callbacks; `C91_call`, `C91_call_same`, `C91_call_refused` for `Client.call`; `C91_put`, `C91_put_refused`, `C91_get`, `C91_read_from`, `C91_read_from_refused`, `C91_write_to`, `C91_jam` for dispatchers. The conversions are those of pybind11, which is not in the repository; see DESIGN.md for what is assumed of it. `C91_call_other`: what `call` does when `new_request` returns something else than `bytes`, or raises."
 },
 "C92": {
  "note": "The full statement is false (`C92_full_statement_is_false`) for two independent reasons: a request without response completed in the middle of the test of the loop makes `write_to` send a byte nobody has produced, whatever the compiler does (`C92_torn_test`); if the compiler stores the new `m_obuf_next` before reading the byte, the last byte may be overwritten (`C92_store_first`). `C92_relays_partial` proves the claim when the byte is read first and the completed requests have responses; `C92_receives_partial` when no request is completed, whatever the compiler does, with the exact effect on reception; `C92_ends`: `write_to` returns when left alone; `C92_uninterrupted`: the steps make up `write_to`; `C92_response`: what is observed when a request is completed is its response.",
  "status": "partial"
 },
 "C93": {
  "note": "The full statement is false (`C93_full_statement_is_false`: the handler runs between the two resets of `call()` on a drained output), and remains so without runs there if the compiler increments `m_obuf_bottom` first (`C93_bottom_first`). `C93_serializable_partial` proves it when there are at most as many runs between the resets as bytes to send, and when, if `m_obuf_bottom` is incremented first, the handler never catches up with a byte not yet written; `C93_exact_partial` says how many runs come before and after; `C93_sent_partial` says which bytes are sent; `C93_session_partial`: any sequence of such puts; `C93_commutes`: a `put` which completes no request and the handler may be exchanged.",
  "status": "partial"
 },
 "C94": {
  "note": "`C94_fixed_width`: headers with portable types, any two targets. `C94_portable`: exactly which headers name types which are the same on all targets. `C94_agree`, `C94_agree_unbuffered`: headers whose types are the same on the two targets at hand. `C94_shorter`: the callee waits for more bytes than it is sent; `C94_longer`: it calls the function on the values of the first bytes, and takes the other ones as another request; `C94_signed_sender`, `C94_unsigned_sender`: which values survive when only the sign differs. The documentation (doc/shared.rst.in:47-48) asks for fixed-width types, but nothing rejects the others."
 },
 "C95": {
  "note": "`C95_confined` (statuses, calls, final state, also if a function throws), `C95_intact` (a request which is received as it has been sent meets the conditions and gets its own arguments) and `C95_exact` (the end of the request is found if and only if the index designates a function whose parameters take as many bytes). Nothing tells the caller that a request has been altered: the library has no checksum."
 },
 "C96": {
  "note": "`C96_relays`, by induction on the row and on the calls; `C96_new` says that new devices are ready. In the model an exception of the last device stops the whole row; on the devices, every caller waits."
 },
 "C97": {
  "note": "`C97_programs` (refinement, by induction on the program), `C97_snapshots` and `C97_dangling`. Names of structured bindings are the results of `get`, which are prvalues bound to rvalue references, hence of extended lifetime."
 },
 "C98": {
  "note": "`C98_alone` (unwinding: from related worlds, same answers and related worlds; then induction on the program) and `C98_copyable`. Streams (`read_from`, `write_to`) are loops of the elementary calls; the byte getters would be parts of the program."
 },
 "C99": {
  "note": "`C99_hub` (induction on the program; every call is one of C47/C48) and `C99_new`. The devices do nothing while they are not called; an exception leaves the program, as in C48."
 },
 "C100": {
  "note": "`C100_nested` (simulation between the bytes and a queue of calls, by induction on the depth and on the bodies), `C100_send`, `C100_receive`. The depth of the stack is a parameter: both sides fault when it is exceeded. The buffered dispatcher is not re-entrant: its input buffer holds the request being processed (C87)."
 },
 "C101": {
  "note": "`C101_interchange` (by induction on the program), `C101_packet` (one call), `C101_single_double`, `C101_after_exception` (witness that the condition on whole packets matters)."
 },
 "C102": {
  "note": "`C102_values` (refinement of pointers by values), `C102_live`, `C102_no_leak`, `C102_exception`, `C102_static`. Callbacks which replace actions while they run are in C68."
 },
 "C103": {
  "note": "`C103_full_statement_is_false`: the output buffer for `void store(uint64_t)` has 8 bytes which are of no use (and that for `uint16_t get()` is too small, C43). Exact: `C103_enough_one`, `C103_enough_two` (which sizes will do), `C103_single_iff`, `C103_double_iff` (for which keyrings the sizes are the smallest), `C103_smallest_partial`."
 },
 "C104": {
  "note": "`C104_forward` (from the elements), `C104_translate` (from the bytes, any two formats), `C104_same_format`, `C104_verbatim`, `C104_again` (same values, idempotent), `C104_transparent` (same behaviour of the callee), `C104_undecodable`."
 },
 "C105": {
  "note": "`C105_dispatcher` (unbuffered, data refinement), `C105_holder` (buffered, adaptive programs using all the member functions), `C105_secrecy` (noninterference), `C105_exact` (full abstraction: as much as direct calls tell, and no more)."
 },
 "C106": {
  "note": "`C106_full_statement_is_false`: with one callback the index is a useless byte. `C106_requests_partial`: true for 2 to 255 callbacks without `bool` parameters, in two's complement or offset binary. `C106_exact`: for any number of callbacks without `bool`, a shorter protocol exists exactly when the requests are few enough to be numbered in one byte less; `C106_shorter`: and then it exists with `bool`s too. `C106_tuple`, `C106_overhead`, `C106_single` (any representation): the arguments alone. `C106_response`: responses.",
  "status": "partial"
 },
 "C107": {
  "note": "`C107_distorted`, `C107_distorted_unbuffered`: whole programs. `C107_arrives`, `C107_one_argument`, `C107_unaltered`, `C107_perfect`: what the altered calls are. `C107_lost`, `C107_lost_unbuffered`: lost bytes. The conditions `AllDecodeSafe` and `ResultsDecodeSafe` are needed: see C42 for what happens without them.",
  "status": "proved"
 },
 "C108": {
  "note": "`C108_messages`: whole programs, against records of an index and arguments. `C108_live`: destinations which modify messages; `C108_live_condition`: its condition is needed.",
  "status": "proved"
 },
 "C109": {
  "note": "`C109_retried`, `C109_retried_unbuffered`: whole programs. `C109_executions`: how often a function is executed. `C109_idempotent`, `C109_once`: idempotent functions. `C109_void` and `C109_stale`: what is not guaranteed.",
  "status": "proved"
 },
 "C110": {
  "note": "`C110_layers`: whole programs. `C110_types`: values returned, in any state of the links. `C110_new`: new devices. `C110_gateway`: translation between formats.",
  "status": "proved"
 },
 "C111": {
  "note": "`C111_coroutines`, `C111_coroutines_unbuffered`: any schedule. `C111_atomic`: calls are atomic. `C111_progress`: no deadlock. `C111_alone`: one coroutine.",
  "status": "proved"
 },
 "C112": {
  "note": "`C112_network`: outcome of programs. `C112_types`: types of results. `C112_new`: new devices are ready. `C112_formats`: platforms, dispatchers and formats do not matter. `C112_rows`: C110 is a particular case.",
  "status": "proved"
 },
 "C113": {
  "note": "`C113_unbuffered`: dispatchers without buffers. `C113_put`, `C113_read_from`, `C113_write_to`, `C113_process`: buffered dispatchers, in any reachable state. `C113_send`, `C113_receive`: clients.",
  "status": "proved"
 },
 "C114": {
  "note": "`C114_dispatcher`, `C114_action`: requests, on any iterators. `C114_buffered`, `C114_buffered_read`, `C114_buffered_write`: the same for buffered dispatchers, in any reachable state between two packets. `C114_send`, `C114_receive`: clients. `C114_streams`, `C114_stream_calls`, `C114_stream_client`: iterators on streams, any bytes. `C114_pointers`: the pointers of C64 are a case.",
  "status": "proved"
 },
 "C115": {
  "note": "`C115_object`, `C115_tuple`, `C115_set`: bytes and values. `C115_send`, `C115_receive`, `C115_callback`, `C115_dispatcher`, `C115_remote`: requests. `C115_integers`, `C115_dispatcher_integers`: on any bytes, callbacks and dispatchers behave as those on integers with the same object representations. `C115_setting`, `C115_buffered`: buffered dispatchers. Without the macro, see C72.",
  "status": "proved"
 },
 "C116": {
  "note": "`C116_specified` (condition on the specification) and `C116_anywhere` (condition on what `is_loaded()` answers): the buffers may overlap. `C116_overwritten`: what happens if a byte is put too early. `C116_whole_packets`: programs which use `operator()`. Nothing is said of executions in which a function has undefined behaviour.",
  "status": "proved"
 },
 "C117": {
  "note": "`C117_pool`: any program, any number of dispatchers. `C117_one_at_a_time`: a concrete execution which shows that the condition on the packets is needed. Nothing is said of executions in which a function or a stream has undefined behaviour, nor of what the program does after an exception.",
  "status": "proved"
 }
}