{
 "claims": [
  {
   "property": "C01",
   "status": "proved",
   "theorems": [
    "Upd.C01_unsigned_round_trip",
    "Upd.C01_bool_round_trip"
   ],
   "note": "No restriction: every valid platform, every format."
  },
  {
   "property": "C02",
   "status": "partial",
   "theorems": [
    "Upd.C02_full_statement_is_false",
    "Upd.C02_signed_round_trip_partial",
    "Upd.C02_round_trip_iff"
   ],
   "note": "Full statement refuted (least value of a type at least as wide as int, two's complement, generic path: signed overflow). C02_round_trip_iff: the round trip holds for all other representable values and for no other value."
  },
  {
   "property": "C03",
   "status": "proved",
   "theorems": [
    "Upd.C03_unsigned_wire_format",
    "Upd.C03_bool_wire_format",
    "Upd.C03_unsigned_decoding"
   ],
   "note": "No restriction: every valid platform, every format; encoding, decoding and bool."
  },
  {
   "property": "C04",
   "status": "partial",
   "theorems": [
    "Upd.C04_signed_wire_format_exact",
    "Upd.C04_full_statement_is_false",
    "Upd.C04_signed_wire_format_partial"
   ],
   "note": "Full statement refuted for the same single value as C02. C04_signed_wire_format_exact decides every representable value: the code is written, or the conversion overflows."
  },
  {
   "property": "C05",
   "status": "proved",
   "theorems": [
    "Upd.C05_write_frame",
    "Upd.C05_write_footprint"
   ],
   "note": "Frame for every write which goes through (C05_write_frame); exact content on the domain (C05_write_footprint). Hypotheses: valid platform, Supported format (false only on a big-endian host where exactly one of the two macros matches), values in the domain Safe (C02)."
  },
  {
   "property": "C06",
   "status": "proved",
   "theorems": [
    "Upd.C06_unambiguous",
    "Upd.C06_wire_injective"
   ],
   "note": "On what the code writes (C06_unambiguous), also for types with gaps, and on the serialized form (C06_wire_injective). Hypotheses: valid platform, Supported format (false only on a big-endian host where exactly one of the two macros matches), values in the domain Safe (C02)."
  },
  {
   "property": "C07",
   "status": "partial",
   "theorems": [
    "Upd.C07_decoding_exact",
    "Upd.C07_full_statement_is_false",
    "Upd.C07_bool_counterexample",
    "Upd.C07_unsigned_decoding_total",
    "Upd.C07_signed_decoding_exact",
    "Upd.C07_bool_decoding_exact",
    "Upd.C07_decoding_total_partial"
   ],
   "note": "Full statement refuted (one two's complement pattern; bool bytes other than 0/1 with the endianess macro). Exact characterisation for signed integers, totality for unsigned integers and for every DecodeSafe type. C07_decoding_exact decides every type and every byte sequence: which bytes cannot be decoded and why, and the value otherwise."
  },
  {
   "property": "C08",
   "status": "proved",
   "theorems": [
    "Upd.C08_stable",
    "Upd.C08_reencoding",
    "Upd.C08_reencoding_unsigned",
    "Upd.C08_reencoding_bool"
   ],
   "note": "Stated for bytes whose decoding is defined (see C07). C08_stable: decoded values of any type (not only integers) can be encoded again and decode as themselves."
  },
  {
   "property": "C09",
   "status": "partial",
   "theorems": [
    "Upd.C09_peers_agree_iff",
    "Upd.C09_never_wrong",
    "Upd.C09_full_statement_is_false",
    "Upd.C09_peers_agree_partial",
    "Upd.C09_decoders_agree"
   ],
   "note": "Full statement refuted at the least value (C02). C09_peers_agree_iff decides every value and every pair of supported platforms; C09_never_wrong: otherwise the writer or the reader faults, never a wrong value."
  },
  {
   "property": "C10",
   "status": "partial",
   "theorems": [
    "Upd.C10_eight_bytes",
    "Upd.C10_eight_bytes_read",
    "Upd.C10_byte_order_macro_only_write",
    "Upd.C10_byte_order_macro_only_read",
    "Upd.C10_signed_macro_only_write",
    "Upd.C10_signed_macro_only_read",
    "Upd.C10_full_statement_is_false",
    "Upd.C10_signed_macro_counterexample",
    "Upd.C10_macros_transparent_write_partial",
    "Upd.C10_macros_transparent_read_partial",
    "Upd.C10_macros_transparent_unsigned"
   ],
   "note": "Full statement refuted on big-endian hosts with exactly one applicable macro. Proved for supported combinations; unrestricted for unsigned integers and for integers of eight bytes. C10_byte_order_macro_only_* and C10_signed_macro_only_* say exactly what happens in the remaining cases: integers of at most four bytes are lost."
  },
  {
   "property": "C11",
   "status": "proved",
   "theorems": [
    "Upd.C11_other_values_round_trip",
    "Upd.C11_least_value_of_wide_type",
    "Upd.C11_least_value_sign_magnitude",
    "Upd.C11_least_value_ones_complement",
    "Upd.C11_least_value_representable"
   ],
   "note": "Exhaustive: all the other values, then the least value in each mode and for each width relative to int. Supported format only (C10)."
  },
  {
   "property": "C12",
   "status": "proved",
   "theorems": [
    "Upd.C12_array",
    "Upd.C12_builtin_types_are_packed"
   ],
   "note": "Hypotheses: valid platform, Supported format (false only on a big-endian host where exactly one of the two macros matches), values in the domain Safe (C02). Elements whose object size is their serialized size, which covers all the built-in types (C12_builtin_types_are_packed); see C14 for the others."
  },
  {
   "property": "C13",
   "status": "proved",
   "theorems": [
    "Upd.C13_user_type"
   ],
   "note": "Hypotheses: valid platform, Supported format (false only on a big-endian host where exactly one of the two macros matches), values in the domain Safe (C02). Fields without arrays of padded user types (C14)."
  },
  {
   "property": "C14",
   "status": "partial",
   "theorems": [
    "Upd.C14_full_statement_is_false",
    "Upd.C14_overlap_counterexample",
    "Upd.C14_array_of_user_type_partial",
    "Upd.C14_gap_counterexample",
    "Upd.C14_conforming",
    "Upd.C14_conforming_all"
   ],
   "note": "Conforming compilers reject arrays of user-extended types, although the library announces them as serializable: the array overloads of read_as and write_as come before those for user-extended types, which lookup does not find. C14_conforming: for the types which remain, no array has padded elements. The other theorems describe the code if the overloads are found (lookup at instantiation): full statement refuted (stride and announced size are sizeof), proved when serialized size <= sizeof."
  },
  {
   "property": "C15",
   "status": "proved",
   "theorems": [
    "Upd.C15_tuple_layout",
    "Upd.C15_gap_counterexample"
   ],
   "note": "Exact layout for all types without arrays of padded user types, in particular for all the types accepted by conforming compilers (C14_conforming). C15_gap_counterexample shows the uninitialised gap otherwise."
  },
  {
   "property": "C16",
   "status": "proved",
   "theorems": [
    "Upd.C16_construct_get"
   ],
   "note": "Hypotheses: valid platform, Supported format (false only on a big-endian host where exactly one of the two macros matches), values in the domain Safe (C02)."
  },
  {
   "property": "C17",
   "status": "proved",
   "theorems": [
    "Upd.C17_set_get"
   ],
   "note": "Hypotheses: valid platform, Supported format (false only on a big-endian host where exactly one of the two macros matches), values in the domain Safe (C02)."
  },
  {
   "property": "C18",
   "status": "proved",
   "theorems": [
    "Upd.C18_set_frame",
    "Upd.C18_set_frame_bytes"
   ],
   "note": "No hypothesis on the platform, the format or the value: any set which goes through, whatever the storage holds."
  },
  {
   "property": "C19",
   "status": "proved",
   "theorems": [
    "Upd.C19_refines_value_list"
   ],
   "note": "Hypotheses: valid platform, Supported format (false only on a big-endian host where exactly one of the two macros matches), values in the domain Safe (C02)."
  },
  {
   "property": "C20",
   "status": "proved",
   "theorems": [
    "Upd.C20_set_order"
   ],
   "note": "Hypotheses: valid platform, Supported format (false only on a big-endian host where exactly one of the two macros matches), values in the domain Safe (C02)."
  },
  {
   "property": "C21",
   "status": "proved",
   "theorems": [
    "Upd.C21_sub_view",
    "Upd.C21_sub_view_bytes"
   ],
   "note": "Access: no hypothesis at all. Bytes: of a tuple made of values; types without gaps."
  },
  {
   "property": "C22",
   "status": "proved",
   "theorems": [
    "Upd.C22_assignment"
   ],
   "note": "The elements of the source must be decodable, and encodable in the format of the destination. Views of the same class are the subject of C23. Which assignments compile is the subject of C86."
  },
  {
   "property": "C23",
   "status": "partial",
   "theorems": [
    "Upd.C23_full_statement_is_false",
    "Upd.C23_view_assignment_partial",
    "Upd.C23_same_class_exact",
    "Upd.C23_alias"
   ],
   "note": "Full statement refuted (implicit assignment rebinds the view). Copy proved for views of different classes. `C23_same_class_exact` says what the assignment of views of the same class does, for all views, and `C23_alias` what follows for later accesses."
  },
  {
   "property": "C24",
   "status": "proved",
   "theorems": [
    "Upd.C24_invoke",
    "Upd.C24_invoke_effect",
    "Upd.C24_not_called"
   ],
   "note": "The callback is a function to any type, which may be the type of effectful computations; see C24_invoke_effect for the calls and their effects."
  },
  {
   "property": "C25",
   "status": "partial",
   "theorems": [
    "Upd.C25_full_statement_is_false",
    "Upd.C25_set_counterexample",
    "Upd.C25_iterator_view_partial",
    "Upd.C25_get_exact",
    "Upd.C25_set_exact"
   ],
   "note": "Full statement refuted (iterator overloads copy sizeof(T) bytes). Proved when object size = serialized size. `C25_get_exact` and `C25_set_exact` say for which contents and positions the accesses are within bounds, and what they do."
  },
  {
   "property": "C26",
   "status": "proved",
   "theorems": [
    "Upd.C26_keyring",
    "Upd.C26_index_type"
   ],
   "note": "For the number of callbacks (C26_index_type) and for the keys made from a keyring (C26_keyring)."
  },
  {
   "property": "C27",
   "status": "proved",
   "theorems": [
    "Upd.C27_key_index",
    "Upd.C27_distinct"
   ],
   "note": "Both implementations of find (C++11 and C++17)."
  },
  {
   "property": "C28",
   "status": "proved",
   "theorems": [
    "Upd.C28_at",
    "Upd.C28_max",
    "Upd.C28_find",
    "Upd.C28_sum",
    "Upd.C28_clip",
    "Upd.C28_index_sequence"
   ],
   "note": "Each algorithm is also proved equal to what it is meant to compute. C28_clip: both reject a range out of the list, except that the C++17 one accepts an empty range anywhere."
  },
  {
   "property": "C29",
   "status": "partial",
   "theorems": [
    "Upd.C29_request_format",
    "Upd.C29_full_statement_is_false",
    "Upd.C29_payload_length_partial",
    "Upd.C29_payload_length_builtin",
    "Upd.C29_payload_length_iff"
   ],
   "note": "Format proved. Payload length refuted for user-extended types whose object size differs from their serialized size; proved otherwise, and for all built-in types. C29_payload_length_iff gives the exact condition."
  },
  {
   "property": "C30",
   "status": "proved",
   "theorems": [
    "Upd.C30_prefix_free",
    "Upd.C30_unique_decodability"
   ],
   "note": "The two sides may be built on different platforms. Hypotheses: valid platform, Supported format (false only on a big-endian host where exactly one of the two macros matches), values in the domain Safe (C02)."
  },
  {
   "property": "C31",
   "status": "proved",
   "theorems": [
    "Upd.C31_read_from",
    "Upd.C31_read_value"
   ],
   "note": "C31_read_from: every source (stateful, throwing) and any bytes, for return types which can be decoded from any bytes; C31_read_value: every return type, on the encoding of a value. Hypotheses: valid platform, Supported format (false only on a big-endian host where exactly one of the two macros matches), values in the domain Safe (C02)."
  },
  {
   "property": "C32",
   "status": "proved",
   "theorems": [
    "Upd.C32_action_effect",
    "Upd.C32_action_call",
    "Upd.C32_action_throw",
    "Upd.C32_action_input_only",
    "Upd.C32_action_sizes"
   ],
   "note": "C32_action_effect: any bytes, for parameters which can be decoded from any bytes, exceptions included; C32_action_call and C32_action_throw: every signature, on encodings of arguments. C32_action_input_only: the form of operator() without destination. The sizes are those of `action`; those of no_storage_action are the subject of C33."
  },
  {
   "property": "C33",
   "status": "partial",
   "theorems": [
    "Upd.C33_same_effect",
    "Upd.C33_full_statement_is_false",
    "Upd.C33_same_sizes_partial",
    "Upd.C33_same_input_size_iff",
    "Upd.C33_same_output_size_iff"
   ],
   "note": "Same effect proved without restriction. Announced sizes refuted for user-extended types with padding; exact condition proved."
  },
  {
   "property": "C34",
   "status": "proved",
   "theorems": [
    "Upd.C34_empty_action",
    "Upd.C34_sizes_counterexample"
   ],
   "note": "Default-constructed and moved-from actions. C34_sizes_counterexample: input_size() of such an action dereferences a null pointer."
  },
  {
   "property": "C35",
   "status": "proved",
   "theorems": [
    "Upd.C35_end_to_end",
    "Upd.C35_throw"
   ],
   "note": "Caller and callee on two different platforms; every source and destination. Hypotheses: valid platform, Supported format (false only on a big-endian host where exactly one of the two macros matches), values in the domain Safe (C02)."
  },
  {
   "property": "C36",
   "status": "proved",
   "theorems": [
    "Upd.C36_unknown_index",
    "Upd.C36_unknown_index_keyring"
   ],
   "note": "For any dispatcher, and for the dispatcher of a keyring."
  },
  {
   "property": "C37",
   "status": "proved",
   "theorems": [
    "Upd.C37_other_index",
    "Upd.C37_replaced_index",
    "Upd.C37_keyring"
   ],
   "note": "Other indices: whatever follows on the stream, valid or not."
  },
  {
   "property": "C38",
   "status": "proved",
   "theorems": [
    "Upd.C38_get_action",
    "Upd.C38_which_action"
   ],
   "note": "C38_get_action: no hypothesis."
  },
  {
   "property": "C39",
   "status": "proved",
   "theorems": [
    "Upd.C39_loading",
    "Upd.C39_resolved",
    "Upd.C39_whole_request"
   ],
   "note": "Reachable: any history of calls since the construction in which no exception of a callback has been caught (C51). Setting: supported format and signatures, parameters whose serialized size is not greater than sizeof (C42). If the response does not fit in the output buffer, C43_overflow says what happens."
  },
  {
   "property": "C40",
   "status": "proved",
   "theorems": [
    "Upd.C40_loading",
    "Upd.C40_dropped",
    "Upd.C40_whole_index"
   ],
   "note": "The output is preserved if there is a separate output buffer; with a single buffered dispatcher the index is stored over it (C47_discipline_needed)."
  },
  {
   "property": "C41",
   "status": "partial",
   "theorems": [
    "Upd.C41_cuts_exist",
    "Upd.C41_cuts_unique",
    "Upd.C41_full_statement_is_false",
    "Upd.C41_framing_partial",
    "Upd.C41_any_bytes_partial",
    "Upd.C41_framing_exact",
    "Upd.C41_decodable_partial"
   ],
   "note": "Full statement refuted (decoding of a bool byte, C07). Proved for readable arguments, for every stream when types decode from any bytes; responses must fit (C43). C41_framing_exact decides every stream, with no hypothesis on the bytes or on the size of the responses: the packets are served in order up to the first one which cannot be decoded or whose response is too large, which faults."
  },
  {
   "property": "C42",
   "status": "partial",
   "theorems": [
    "Upd.C42_full_statement_is_false",
    "Upd.C42_faults_partial",
    "Upd.C42_input_buffer_partial",
    "Upd.C42_no_fault_partial",
    "Upd.C42_faults_any",
    "Upd.C42_overrun_iff"
   ],
   "note": "Full statement refuted (after a callback has thrown). Without caught exception: complete list of the possible faults, all due to C43, C07 or user code. C42_overrun_iff and C42_faults_any: all the histories, exceptions being caught."
  },
  {
   "property": "C43",
   "status": "partial",
   "theorems": [
    "Upd.C43_full_statement_is_false",
    "Upd.C43_output_buffer_partial",
    "Upd.C43_overflow",
    "Upd.C43_overflow_iff"
   ],
   "note": "Full statement refuted (output buffer sized from the parameters). Proved when responses fit; C43_overflow proves the overrun for every other keyring. C43_overflow_iff: exactly when the bytes of a request overrun the output buffer."
  },
  {
   "property": "C44",
   "status": "proved",
   "theorems": [
    "Upd.C44_same_as_puts",
    "Upd.C44_exact_bytes",
    "Upd.C44_incomplete",
    "Upd.C44_never_loading",
    "Upd.C44_request"
   ],
   "note": "C44_same_as_puts holds for any bytes, including those which cannot be decoded: both sides have then the same fault."
  },
  {
   "property": "C45",
   "status": "proved",
   "theorems": [
    "Upd.C45_unread",
    "Upd.C45_fifo",
    "Upd.C45_write_to"
   ],
   "note": "Refinement of a queue, for any interleaving; throwing putters included."
  },
  {
   "property": "C46",
   "status": "partial",
   "theorems": [
    "Upd.C46_full_statement_is_false",
    "Upd.C46_departures",
    "Upd.C46_machine_partial",
    "Upd.C46_states",
    "Upd.C46_exact"
   ],
   "note": "Full statement refuted because of C43. Refinement of the abstract machine proved; C46_departures covers all keyrings, up to the faults of C43 and C07. C46_exact: for any keyring and any calls, the outcome (faults included) is that of a machine with a bounded output queue."
  },
  {
   "property": "C47",
   "status": "partial",
   "theorems": [
    "Upd.C47_full_statement_is_false",
    "Upd.C47_half_duplex_partial",
    "Upd.C47_discipline_needed",
    "Upd.C47_machine_exact",
    "Upd.C47_exact"
   ],
   "note": "Full statement refuted because of C43. Equivalence proved for keyrings whose responses fit; C47_discipline_needed shows what happens without draining. C47_exact: for any keyring, both kinds have the same outcome, faults included, unless a response overruns the output buffer of the double buffered one."
  },
  {
   "property": "C48",
   "status": "proved",
   "theorems": [
    "Upd.C48_request",
    "Upd.C48_resolved",
    "Upd.C48_not_resolved",
    "Upd.C48_invalid_index"
   ],
   "note": "C48_resolved and C48_not_resolved: any reachable state. C48_request: comparison with the unbuffered dispatcher between two packets, exceptions and faults included."
  },
  {
   "property": "C49",
   "status": "proved",
   "theorems": [
    "Upd.C49_reply",
    "Upd.C49_no_reply",
    "Upd.C49_true_only_if",
    "Upd.C49_after_get"
   ],
   "note": "ReplyKey: the key takes an array of n bytes, as the code requires. The bytes after the response are those of an uninitialised array."
  },
  {
   "property": "C50",
   "status": "proved",
   "theorems": [
    "Upd.C50_moved_to",
    "Upd.C50_moved_from"
   ],
   "note": "C50_moved_to: any state, any calls. C50_moved_from: what happens to the object moved from."
  },
  {
   "property": "C51",
   "status": "partial",
   "theorems": [
    "Upd.C51_exact",
    "Upd.C51_exact_single",
    "Upd.C51_forever",
    "Upd.C51_histories",
    "Upd.C51_full_statement_is_false",
    "Upd.C51_throw_partial",
    "Upd.C51_stuck"
   ],
   "note": "Full statement refuted: a throwing callback leaves the dispatcher stuck (C51_stuck, any keyring). C51_exact, C51_forever, C51_histories: what happens in all the histories, exceptions being caught."
  },
  {
   "property": "C52",
   "status": "proved",
   "theorems": [
    "Upd.C52_resume"
   ],
   "note": "Any point of the packet, any getter afterwards."
  },
  {
   "property": "C53",
   "status": "proved",
   "theorems": [
    "Upd.C53_hook",
    "Upd.C53_hook_void"
   ],
   "note": "Hook given as an object (with_hook(f)) or as a template argument (with_hook<f>()); hooks whose parameter is of another type are the subject of C66. Hypotheses: valid platform, Supported format (false only on a big-endian host where exactly one of the two macros matches), values in the domain Safe (C02)."
  },
  {
   "property": "C54",
   "status": "partial",
   "theorems": [
    "Upd.C54_full_statement_is_false",
    "Upd.C54_encode_exact",
    "Upd.C54_encode_partial",
    "Upd.C54_decode",
    "Upd.C54_decode_short",
    "Upd.C54_client_partial",
    "Upd.C54_client_other"
   ],
   "note": "Full statement refuted: encode returns uninitialised trailing bytes (or writes out of bounds) for user-extended types whose object size differs from their serialized size (as C29); exact result given by C54_encode_exact, proved as stated otherwise. decode: proved, a short response raises. Client.call: proved end to end through a dispatcher on another platform. pybind11 conversions not modelled."
  },
  {
   "property": "C55",
   "status": "partial",
   "theorems": [
    "Upd.C55_full_statement_is_false",
    "Upd.C55_rvalue_partial",
    "Upd.C55_rvalue_value",
    "Upd.C55_lvalue_current_value",
    "Upd.C55_lvalue_dangling"
   ],
   "note": "Full statement refuted: an action built from an lvalue stores a reference to it (C55_lvalue_current_value, C55_lvalue_dangling). Proved for rvalues."
  },
  {
   "property": "C56",
   "status": "partial",
   "theorems": [
    "Upd.C56_full_statement_is_false",
    "Upd.C56_no_resolution_partial",
    "Upd.C56_empty_partial",
    "Upd.C56_after_test_partial",
    "Upd.C56_stale_byte",
    "Upd.C56_resolution_exact",
    "Upd.C56_serializable_iff"
   ],
   "note": "Full statement refuted: the handler may complete a request without response between the test and the fetch. Proved when the handler does not complete a request (any point), when there is nothing to read, and right after the test. Exactly: C56_resolution_exact (byte and state at every point when the handler completes a request) and C56_serializable_iff (which interruptions are equivalent to running the handler before or after)."
  },
  {
   "property": "C57",
   "status": "proved",
   "theorems": [
    "Upd.C57_default_tuple"
   ],
   "note": "Hypotheses: valid platform, Supported format (false only on a big-endian host where exactly one of the two macros matches). Zero belongs to the domain of every format."
  },
  {
   "property": "C58",
   "status": "partial",
   "theorems": [
    "Upd.C58_full_statement_is_false",
    "Upd.C58_while_output_partial",
    "Upd.C58_stale_byte",
    "Upd.C58_output_exact",
    "Upd.C58_resets_exact",
    "Upd.C58_reading_partial"
   ],
   "note": "Full statement refuted: between the resets of m_obuf_bottom and m_obuf_next the handler sends a stale byte or reads out of bounds (C58_stale_byte, any keyring). Exactly: C58_resets_exact (between the resets), C58_output_exact (while the response is being output, including between the increment of m_obuf_bottom and the assignment of the byte, where it sends a stale byte). Proved to be harmless after any byte of the response, and between the resets when the previous response is half read."
  },
  {
   "property": "C59",
   "status": "proved",
   "theorems": [
    "Upd.C59_replace",
    "Upd.C59_departures",
    "Upd.C59_midway",
    "Upd.C59_foreign_keys"
   ],
   "note": "Refinement of the abstract machine whose callbacks may be changed between any two calls. C59_departures: without the hypotheses on the keyring, the only departures are those of C43 and C07. C59_foreign_keys: the Python class does not check that the key belongs to the keyring; with another key, writes out of bounds."
  },
  {
   "property": "C60",
   "status": "proved",
   "theorems": [
    "Upd.C60_custom",
    "Upd.C60_input_needed",
    "Upd.C60_output_needed"
   ],
   "note": "Sufficient (C60_custom) and necessary (C60_input_needed, C60_output_needed). The buffers are either one and the same or disjoint; see C116 for any other overlap."
  },
  {
   "property": "C61",
   "status": "proved",
   "theorems": [
    "Upd.C61_blocking",
    "Upd.C61_blocking_unbuffered",
    "Upd.C61_pipelined",
    "Upd.C61_pipelined_unbuffered"
   ],
   "note": "Sequences of calls in blocking and pipelined modes, over a lossless link; callee with a buffered or an unbuffered dispatcher. The functions do not use the link themselves."
  },
  {
   "property": "C62",
   "status": "proved",
   "theorems": [
    "Upd.C62_hooked",
    "Upd.C62_hooked_unbuffered",
    "Upd.C62_replied"
   ],
   "note": "Directly (C62_hooked, C62_hooked_unbuffered) and through reply (C62_replied). The action kept by the caller is a parameter of the function registered for replies (in the test, a global variable)."
  },
  {
   "property": "C63",
   "status": "partial",
   "theorems": [
    "Upd.C63_on_byte_sent",
    "Upd.C63_one_request_partial",
    "Upd.C63_response_partial",
    "Upd.C63_dropped",
    "Upd.C63_full_statement_is_false"
   ],
   "note": "Full statement refuted: get() returns a null byte when there is nothing left, and the handlers send it. Exact bytes given by C63_one_request_partial; proved as stated as long as the response has not been completely sent."
  },
  {
   "property": "C64",
   "status": "proved",
   "theorems": [
    "Upd.C64_dispatcher",
    "Upd.C64_unknown_index",
    "Upd.C64_action",
    "Upd.C64_key_write",
    "Upd.C64_key_read",
    "Upd.C64_buffered",
    "Upd.C64_buffered_read",
    "Upd.C64_buffered_write",
    "Upd.C64_in_place"
   ],
   "note": "Whole response past the end of the array is the fault oobWrite. Buffered dispatcher: between two packets."
  },
  {
   "property": "C65",
   "status": "proved",
   "theorems": [
    "Upd.C65_conversion",
    "Upd.C65_set_get",
    "Upd.C65_construct_get",
    "Upd.C65_assignment",
    "Upd.C65_remote_call"
   ],
   "note": "Implicit integral and boolean conversions only. Values which the representation of the signed mode cannot hold are excluded, as in C16 and C17."
  },
  {
   "property": "C66",
   "status": "partial",
   "theorems": [
    "Upd.C66_full_statement_is_false",
    "Upd.C66_hook_partial",
    "Upd.C66_exact"
   ],
   "note": "False: with_hook accepts any invocable object and the action reads the parameter of the hook, not the type returned by the function. Proved when both types are the same; C66_exact states what is read in general."
  },
  {
   "property": "C67",
   "status": "proved",
   "theorems": [
    "Upd.C67_sequence",
    "Upd.C67_repeat",
    "Upd.C67_accepted",
    "Upd.C67_accepted_iff"
   ],
   "note": "The object is called as an rvalue when it was given as a temporary, even though the action calls it several times; this cannot select another overload since overloaded operator() are rejected."
  },
  {
   "property": "C68",
   "status": "proved",
   "theorems": [
    "Upd.C68_request",
    "Upd.C68_outcome",
    "Upd.C68_replace",
    "Upd.C68_sequence",
    "Upd.C68_captures"
   ],
   "note": "`C68_request`, `C68_sequence`: the library does not use the object of the action after the call of the callback. `C68_captures`: exactly when a callback which has replaced actions can still use its own captures."
  },
  {
   "property": "C69",
   "status": "partial",
   "theorems": [
    "Upd.C69_replaced_by_source_partial",
    "Upd.C69_outcome_partial",
    "Upd.C69_destroyed",
    "Upd.C69_history_partial",
    "Upd.C69_full_statement_is_false"
   ],
   "note": "False for action_features::ANY: the action being invoked is destroyed before its callback is read. `C69_history_partial`, in terms of the replacements made before and during the request: the callback is called, except when it is a member of its action (`ANY`, given to `replace` as an rvalue) and this action is replaced while the arguments are read; then the behaviour is always undefined. `C69_replaced_by_source_partial`, `C69_destroyed`: the same for any effect of the source on the actions."
  },
  {
   "property": "C70",
   "status": "proved",
   "theorems": [
    "Upd.C70_write",
    "Upd.C70_round_trip",
    "Upd.C70_as_fields",
    "Upd.C70_field_not_set"
   ],
   "note": "serialize is a sequence of set on the view. C70_as_fields justifies the model of user types used by the other claims."
  },
  {
   "property": "C71",
   "status": "proved",
   "theorems": [
    "Upd.C71_send",
    "Upd.C71_receive"
   ],
   "note": "The checksum is any function of the bytes of the data."
  },
  {
   "property": "C72",
   "status": "partial",
   "theorems": [
    "Upd.C72_full_statement_is_false",
    "Upd.C72_truncated_partial",
    "Upd.C72_ones_complement_negative",
    "Upd.C72_offset_binary_nonnegative",
    "Upd.C72_offset_binary_negative",
    "Upd.C72_offset_binary_largest",
    "Upd.C72_twos_complement",
    "Upd.C72_native"
   ],
   "note": "Full statement false (`C72_full_statement_is_false`: 1.5 is read back as 1). Proved: exactly which number is read back in sign-magnitude, and in ones' complement for non-negative numbers and `double`; every negative `float` is read back as -2^64 in ones' complement; offset binary reads a non-negative number back as the nearest multiple of 256 (`float`) or 2048 (`double`) and never reads a negative number back as negative; the bits are preserved when the macro matches. `C72_twos_complement`: cannot be written in two's complement without the macro; what bytes are read as."
  },
  {
   "property": "C73",
   "status": "proved",
   "theorems": [
    "Upd.C73_idle",
    "Upd.C73_interrupted",
    "Upd.C73_resynchronised"
   ],
   "note": "Keyrings with 256 functions or more have indices of several bytes, for which filler bytes are not enough (C40_loading: a filler byte may be kept as the first byte of an index). Fault-free callbacks, decodable arguments (C07) and large enough output buffers (C43) are assumed as elsewhere."
  },
  {
   "property": "C74",
   "status": "partial",
   "theorems": [
    "Upd.C74_full_statement_is_false",
    "Upd.C74_names_partial",
    "Upd.C74_dispatcher_partial",
    "Upd.C74_qualified",
    "Upd.C74_overloads",
    "Upd.C74_bound_once",
    "Upd.C74_misnamed",
    "Upd.C74_regex"
   ],
   "note": "Full statement false (`C74_full_statement_is_false`: a function of a namespace makes the import fail). Proved for every list of global functions and objects, also for `declare_dispatcher`; proved that functions of namespaces (`C74_qualified`), overloads (`C74_overloads`) and a second keyring with the same signature at the same index (`C74_bound_once`) always make it fail; a function may be exposed under the name of another (`C74_misnamed`). `C74_regex` says which name is found in any text whatever, as the match of the regular expression."
  },
  {
   "property": "C75",
   "status": "proved",
   "theorems": [
    "Upd.C75_asynchronous"
   ],
   "note": "Proved for every interleaving, by an invariant which carries the exact number of steps left."
  },
  {
   "property": "C76",
   "status": "proved",
   "theorems": [
    "Upd.C76_keys",
    "Upd.C76_older_caller",
    "Upd.C76_older_caller_unbuffered",
    "Upd.C76_newer_caller",
    "Upd.C76_boundary"
   ],
   "note": "Proved for buffered and unbuffered callees. `C76_boundary` shows that the condition on the number of functions is needed."
  },
  {
   "property": "C77",
   "status": "proved",
   "theorems": [
    "Upd.C77_transmission",
    "Upd.C77_transmissions",
    "Upd.C77_split",
    "Upd.C77_front_page",
    "Upd.C77_truncated"
   ],
   "note": "Proved. `C77_truncated` shows what is not claimed: a transmission which ends in the middle of a request is not discarded, its request is completed by the next transmission."
  },
  {
   "property": "C78",
   "status": "proved",
   "theorems": [
    "Upd.C78_multimaster",
    "Upd.C78_reply_for_ever"
   ],
   "note": "Proved, for functions and callbacks which return (no exception) and return types of at least one byte. The documentation names the architecture without giving its program: the one which is modelled is made after test/buffered_dispatcher.cpp, with a queue of actions in place of one action."
  },
  {
   "property": "C79",
   "status": "proved",
   "theorems": [
    "Upd.C79_pipelined",
    "Upd.C79_writing_first",
    "Upd.C79_replaced_response"
   ],
   "note": "Proved, for functions which return (no exception). `C79_writing_first` decides, for a caller which writes everything first, whether it ever gets a response. `C79_replaced_response` is an execution in which the callee does not wait."
  },
  {
   "property": "C80",
   "status": "partial",
   "theorems": [
    "Upd.C80_functions",
    "Upd.C80_objects_partial",
    "Upd.C80_pointers_partial",
    "Upd.C80_replace",
    "Upd.C80_exact",
    "Upd.C80_keys",
    "Upd.C80_full_statement_is_false"
   ],
   "note": "The full statement is false (`C80_full_statement_is_false`): a keyring accepts objects, no dispatcher can be built from it. `C80_functions` proves the statement for functions; `C80_objects_partial` says what works for objects (keys, replace) and what does not; `C80_exact` is the exact criterion. Missing: generic lambdas, variadic functions. `C80_keys`: a keyring is accepted exactly when each key has a signature. `C80_pointers_partial`: variables which hold a pointer to a function behave like objects; `C80_replace`: nothing else may replace a callback."
  },
  {
   "property": "C81",
   "status": "partial",
   "theorems": [
    "Upd.C81_reading_functions",
    "Upd.C81_writing_functions",
    "Upd.C81_objects",
    "Upd.C81_qualifiers",
    "Upd.C81_overloaded",
    "Upd.C81_keys_accept_more",
    "Upd.C81_full_statement_is_false"
   ],
   "note": "The full statement is false (`C81_full_statement_is_false`: a getter which returns an int). The other theorems say exactly which getters and putters keys and actions accept; `C81_keys_accept_more` is the inclusion which does hold."
  },
  {
   "property": "C82",
   "status": "partial",
   "theorems": [
    "Upd.C82_exact",
    "Upd.C82_depth",
    "Upd.C82_enabled",
    "Upd.C82_fresh",
    "Upd.C82_others",
    "Upd.C82_failed_build",
    "Upd.C82_found_partial",
    "Upd.C82_full_statement_is_false"
   ],
   "note": "The last sentence is false (`C82_full_statement_is_false`: a module which imports another one while it is being loaded); everything else is proved, `C82_exact` being the outcome of any import. `C82_found_partial` is the last sentence for modules which import no other one. Missing: what the other finders do, `cppimport` itself."
  },
  {
   "property": "C83",
   "status": "partial",
   "theorems": [
    "Upd.C83_offset",
    "Upd.C83_plain_partial",
    "Upd.C83_exact",
    "Upd.C83_full_statement_is_false"
   ],
   "note": "The full statement is false (`C83_full_statement_is_false`: a virtual destructor is enough). `C83_offset` says for which classes the subobject is at the address of the object with the layout of the Itanium C++ ABI; `C83_plain_partial` proves the claim for these, `C83_exact` that the first byte put is undefined behaviour for all the others. Missing: virtual bases, components of the same type which compete for an address, other ABIs."
  },
  {
   "property": "C84",
   "status": "partial",
   "theorems": [
    "Upd.C84_tuples",
    "Upd.C84_served",
    "Upd.C84_keys",
    "Upd.C84_full_statement_is_false",
    "Upd.C84_by_value_partial",
    "Upd.C84_refused",
    "Upd.C84_arrays_not_checked"
   ],
   "note": "The full statement is false (`C84_full_statement_is_false`: `const int &f()` cannot be served by `action`). `C84_tuples`, `C84_served` and `C84_keys` say exactly which tuples, functions and calls compile; `C84_by_value_partial` proves the claim for parameters by value or const reference and results by value; `C84_refused` and `C84_arrays_not_checked` list what is refused although it is announced. Missing: volatile types, `std::array` of const elements, classes which cannot be copied."
  },
  {
   "property": "C85",
   "status": "proved",
   "theorems": [
    "Upd.C85_history",
    "Upd.C85_set_byte",
    "Upd.C85_bounds",
    "Upd.C85_fill"
   ],
   "note": "Induction on the sequence of writes. `C85_history` relates the memory to a plain array of bytes, `C85_set_byte` says which elements a byte belongs to, `C85_bounds` that the only limit is that of the memory, `C85_fill` that received bytes are decoded."
  },
  {
   "property": "C86",
   "status": "partial",
   "theorems": [
    "Upd.C86_assignments",
    "Upd.C86_sources",
    "Upd.C86_full_statement_is_false",
    "Upd.C86_plain_arrays",
    "Upd.C86_assignment_partial",
    "Upd.C86_get_then_set",
    "Upd.C86_set_function",
    "Upd.C86_constness",
    "Upd.C86_copies"
   ],
   "note": "The full statement is false (`C86_full_statement_is_false`: variables of another format are refused; `C86_plain_arrays`: so are elements `T[N]`, from temporaries too). `C86_assignments` says exactly which assignments compile, `C86_sources` that variables and constants can be copied to the very same class only, `C86_assignment_partial` proves the claim for temporaries without `T[N]`, `C86_get_then_set` and `C86_constness` are about elements, `C86_copies` about the effect of what compiles. Missing: views over iterators which are not pointers. `C86_set_function`: `upd::set` in addition needs an lvalue."
  },
  {
   "property": "C87",
   "status": "partial",
   "theorems": [
    "Upd.C87_refinement",
    "Upd.C87_depth",
    "Upd.C87_lost",
    "Upd.C87_quiet_partial",
    "Upd.C87_overrun",
    "Upd.C87_read_from",
    "Upd.C87_full_statement_is_false"
   ],
   "note": "The full statement is false (`C87_full_statement_is_false`): `put` by the callback of the largest packet is out of the input buffer. `C87_refinement` says exactly what callbacks get, by simulation with callbacks which do not refer to the dispatcher: `put` is LOADING_PACKET and the byte is lost while there is room, an overrun after that (`C87_overrun`); `read_from` never returns (`C87_read_from`); the other functions find nothing. `C87_lost`: when no buffer is overrun, nothing put by a callback is ever part of a packet. `C87_quiet_partial` proves the claim for callbacks which give no byte to the dispatcher. Missing: callbacks which catch what such a call throws; callbacks which put bytes, for which it is false."
  },
  {
   "property": "C88",
   "status": "proved",
   "theorems": [
    "Upd.C88_request",
    "Upd.C88_dispatcher",
    "Upd.C88_write_to",
    "Upd.C88_process",
    "Upd.C88_reply",
    "Upd.C88_attempts",
    "Upd.C88_attempts_return"
   ],
   "note": "`C88_request` and `C88_dispatcher` characterise when writing a request or a response throws; `C88_write_to` and `C88_process` say what is left in a buffered dispatcher, `C88_attempts` what any number of attempts gives to the putters (`C88_attempts_return`: they all end), `C88_reply` that nothing is left after `reply`."
  },
  {
   "property": "C89",
   "status": "partial",
   "theorems": [
    "Upd.C89_import",
    "Upd.C89_history",
    "Upd.C89_hooks",
    "Upd.C89_outcome",
    "Upd.C89_failed",
    "Upd.C89_one_compiler",
    "Upd.C89_nested",
    "Upd.C89_full_statement_is_false",
    "Upd.C89_kept_partial",
    "Upd.C89_include"
   ],
   "note": "The full statement is false (`C89_full_statement_is_false`): when one of CC and CXX only is set, both are replaced (`C89_one_compiler`); each nested process adds one more `ccache` (`C89_history` gives the exact value, `C89_nested`: never the same environment); a failed import leaves the hook in `sys.meta_path` (`C89_failed`; `C89_hooks`: exactly one along any history). `C89_kept_partial` proves the claim when both variables are set; `C89_outcome` says which imports fail; `C89_include` is the claim on the include directories, in full."
  },
  {
   "property": "C90",
   "status": "proved",
   "theorems": [
    "Upd.C90_selection",
    "Upd.C90_selection_one",
    "Upd.C90_refused",
    "Upd.C90_refused_one",
    "Upd.C90_both",
    "Upd.C90_both_one",
    "Upd.C90_dispatcher",
    "Upd.C90_unknown_index",
    "Upd.C90_action",
    "Upd.C90_action_input",
    "Upd.C90_key_write",
    "Upd.C90_key_read",
    "Upd.C90_buffered",
    "Upd.C90_buffered_read",
    "Upd.C90_buffered_write",
    "Upd.C90_append",
    "Upd.C90_queue",
    "Upd.C90_overwrite",
    "Upd.C90_reread",
    "Upd.C90_pointer"
   ],
   "note": "`C90_selection`, `C90_selection_one`, `C90_refused`, `C90_refused_one`, `C90_both` and `C90_both_one` cover all combinations of kinds and constness; `C90_dispatcher`, `C90_unknown_index`, `C90_action`, `C90_action_input`, `C90_key_write`, `C90_key_read`, `C90_buffered`, `C90_buffered_read` and `C90_buffered_write` say what the calls do on streams of any kind (buffered dispatchers between two packets); `C90_append`, `C90_queue`, `C90_overwrite` and `C90_reread` what several calls on one iterator do; `C90_pointer` relates this to C64."
  },
  {
   "property": "C91",
   "status": "proved",
   "theorems": [
    "Upd.C91_encode",
    "Upd.C91_encode_refused",
    "Upd.C91_encode_unique",
    "Upd.C91_encode_range",
    "Upd.C91_decode",
    "Upd.C91_decode_refused",
    "Upd.C91_function",
    "Upd.C91_well_typed",
    "Upd.C91_call_refused",
    "Upd.C91_call",
    "Upd.C91_call_other",
    "Upd.C91_call_same",
    "Upd.C91_put_refused",
    "Upd.C91_put",
    "Upd.C91_get",
    "Upd.C91_read_from",
    "Upd.C91_read_from_refused",
    "Upd.C91_write_to",
    "Upd.C91_replace",
    "Upd.C91_jam"
   ],
   "note": "`C91_encode`, `C91_encode_refused`, `C91_encode_unique`, `C91_encode_range`, `C91_decode`, `C91_decode_refused` for keys; `C91_function`, `C91_well_typed` and `C91_replace` for Python functions as callbacks; `C91_call`, `C91_call_same`, `C91_call_refused` for `Client.call`; `C91_put`, `C91_put_refused`, `C91_get`, `C91_read_from`, `C91_read_from_refused`, `C91_write_to`, `C91_jam` for dispatchers. The conversions are those of pybind11, which is not in the repository; see DESIGN.md for what is assumed of it. `C91_call_other`: what `call` does when `new_request` returns something else than `bytes`, or raises."
  },
  {
   "property": "C92",
   "status": "partial",
   "theorems": [
    "Upd.C92_store_first",
    "Upd.C92_torn_test",
    "Upd.C92_full_statement_is_false",
    "Upd.C92_relays_partial",
    "Upd.C92_receives_partial",
    "Upd.C92_ends",
    "Upd.C92_uninterrupted",
    "Upd.C92_response"
   ],
   "note": "The full statement is false (`C92_full_statement_is_false`) for two independent reasons: a request without response completed in the middle of the test of the loop makes `write_to` send a byte nobody has produced, whatever the compiler does (`C92_torn_test`); if the compiler stores the new `m_obuf_next` before reading the byte, the last byte may be overwritten (`C92_store_first`). `C92_relays_partial` proves the claim when the byte is read first and the completed requests have responses; `C92_receives_partial` when no request is completed, whatever the compiler does, with the exact effect on reception; `C92_ends`: `write_to` returns when left alone; `C92_uninterrupted`: the steps make up `write_to`; `C92_response`: what is observed when a request is completed is its response."
  },
  {
   "property": "C93",
   "status": "partial",
   "theorems": [
    "Upd.C93_full_statement_is_false",
    "Upd.C93_exact_partial",
    "Upd.C93_serializable_partial",
    "Upd.C93_sent_partial",
    "Upd.C93_commutes",
    "Upd.C93_session_partial",
    "Upd.C93_bottom_first"
   ],
   "note": "The full statement is false (`C93_full_statement_is_false`: the handler runs between the two resets of `call()` on a drained output), and remains so without runs there if the compiler increments `m_obuf_bottom` first (`C93_bottom_first`). `C93_serializable_partial` proves it when there are at most as many runs between the resets as bytes to send, and when, if `m_obuf_bottom` is incremented first, the handler never catches up with a byte not yet written; `C93_exact_partial` says how many runs come before and after; `C93_sent_partial` says which bytes are sent; `C93_session_partial`: any sequence of such puts; `C93_commutes`: a `put` which completes no request and the handler may be exchanged."
  },
  {
   "property": "C94",
   "status": "proved",
   "theorems": [
    "Upd.C94_agree",
    "Upd.C94_agree_unbuffered",
    "Upd.C94_portable",
    "Upd.C94_fixed_width",
    "Upd.C94_shorter",
    "Upd.C94_longer",
    "Upd.C94_signed_sender",
    "Upd.C94_unsigned_sender"
   ],
   "note": "`C94_fixed_width`: headers with portable types, any two targets. `C94_portable`: exactly which headers name types which are the same on all targets. `C94_agree`, `C94_agree_unbuffered`: headers whose types are the same on the two targets at hand. `C94_shorter`: the callee waits for more bytes than it is sent; `C94_longer`: it calls the function on the values of the first bytes, and takes the other ones as another request; `C94_signed_sender`, `C94_unsigned_sender`: which values survive when only the sign differs. The documentation (doc/shared.rst.in:47-48) asks for fixed-width types, but nothing rejects the others."
  },
  {
   "property": "C95",
   "status": "proved",
   "theorems": [
    "Upd.C95_confined",
    "Upd.C95_intact",
    "Upd.C95_exact"
   ],
   "note": "`C95_confined` (statuses, calls, final state, also if a function throws), `C95_intact` (a request which is received as it has been sent meets the conditions and gets its own arguments) and `C95_exact` (the end of the request is found if and only if the index designates a function whose parameters take as many bytes). Nothing tells the caller that a request has been altered: the library has no checksum."
  },
  {
   "property": "C96",
   "status": "proved",
   "theorems": [
    "Upd.C96_relays",
    "Upd.C96_new"
   ],
   "note": "`C96_relays`, by induction on the row and on the calls; `C96_new` says that new devices are ready. In the model an exception of the last device stops the whole row; on the devices, every caller waits."
  },
  {
   "property": "C97",
   "status": "proved",
   "theorems": [
    "Upd.C97_programs",
    "Upd.C97_snapshots",
    "Upd.C97_dangling"
   ],
   "note": "`C97_programs` (refinement, by induction on the program), `C97_snapshots` and `C97_dangling`. Names of structured bindings are the results of `get`, which are prvalues bound to rvalue references, hence of extended lifetime."
  },
  {
   "property": "C98",
   "status": "proved",
   "theorems": [
    "Upd.C98_alone",
    "Upd.C98_copyable"
   ],
   "note": "`C98_alone` (unwinding: from related worlds, same answers and related worlds; then induction on the program) and `C98_copyable`. Streams (`read_from`, `write_to`) are loops of the elementary calls; the byte getters would be parts of the program."
  },
  {
   "property": "C99",
   "status": "proved",
   "theorems": [
    "Upd.C99_hub",
    "Upd.C99_new"
   ],
   "note": "`C99_hub` (induction on the program; every call is one of C47/C48) and `C99_new`. The devices do nothing while they are not called; an exception leaves the program, as in C48."
  },
  {
   "property": "C100",
   "status": "proved",
   "theorems": [
    "Upd.C100_nested",
    "Upd.C100_send",
    "Upd.C100_receive"
   ],
   "note": "`C100_nested` (simulation between the bytes and a queue of calls, by induction on the depth and on the bodies), `C100_send`, `C100_receive`. The depth of the stack is a parameter: both sides fault when it is exceeded. The buffered dispatcher is not re-entrant: its input buffer holds the request being processed (C87)."
  },
  {
   "property": "C101",
   "status": "proved",
   "theorems": [
    "Upd.C101_interchange",
    "Upd.C101_packet",
    "Upd.C101_single_double",
    "Upd.C101_after_exception"
   ],
   "note": "`C101_interchange` (by induction on the program), `C101_packet` (one call), `C101_single_double`, `C101_after_exception` (witness that the condition on whole packets matters)."
  },
  {
   "property": "C102",
   "status": "proved",
   "theorems": [
    "Upd.C102_values",
    "Upd.C102_live",
    "Upd.C102_no_leak",
    "Upd.C102_exception",
    "Upd.C102_static"
   ],
   "note": "`C102_values` (refinement of pointers by values), `C102_live`, `C102_no_leak`, `C102_exception`, `C102_static`. Callbacks which replace actions while they run are in C68."
  },
  {
   "property": "C103",
   "status": "partial",
   "theorems": [
    "Upd.C103_enough_one",
    "Upd.C103_enough_two",
    "Upd.C103_single_iff",
    "Upd.C103_double_iff",
    "Upd.C103_smallest_partial",
    "Upd.C103_full_statement_is_false"
   ],
   "note": "`C103_full_statement_is_false`: the output buffer for `void store(uint64_t)` has 8 bytes which are of no use (and that for `uint16_t get()` is too small, C43). Exact: `C103_enough_one`, `C103_enough_two` (which sizes will do), `C103_single_iff`, `C103_double_iff` (for which keyrings the sizes are the smallest), `C103_smallest_partial`."
  },
  {
   "property": "C104",
   "status": "proved",
   "theorems": [
    "Upd.C104_forward",
    "Upd.C104_translate",
    "Upd.C104_same_format",
    "Upd.C104_verbatim",
    "Upd.C104_again",
    "Upd.C104_transparent",
    "Upd.C104_undecodable"
   ],
   "note": "`C104_forward` (from the elements), `C104_translate` (from the bytes, any two formats), `C104_same_format`, `C104_verbatim`, `C104_again` (same values, idempotent), `C104_transparent` (same behaviour of the callee), `C104_undecodable`."
  },
  {
   "property": "C105",
   "status": "proved",
   "theorems": [
    "Upd.C105_dispatcher",
    "Upd.C105_holder",
    "Upd.C105_secrecy",
    "Upd.C105_exact"
   ],
   "note": "`C105_dispatcher` (unbuffered, data refinement), `C105_holder` (buffered, adaptive programs using all the member functions), `C105_secrecy` (noninterference), `C105_exact` (full abstraction: as much as direct calls tell, and no more)."
  },
  {
   "property": "C106",
   "status": "partial",
   "theorems": [
    "Upd.C106_fair",
    "Upd.C106_full_statement_is_false",
    "Upd.C106_requests_partial",
    "Upd.C106_shorter",
    "Upd.C106_exact",
    "Upd.C106_tuple",
    "Upd.C106_overhead",
    "Upd.C106_single",
    "Upd.C106_response"
   ],
   "note": "`C106_full_statement_is_false`: with one callback the index is a useless byte. `C106_requests_partial`: true for 2 to 255 callbacks without `bool` parameters, in two's complement or offset binary. `C106_exact`: for any number of callbacks without `bool`, a shorter protocol exists exactly when the requests are few enough to be numbered in one byte less; `C106_shorter`: and then it exists with `bool`s too. `C106_tuple`, `C106_overhead`, `C106_single` (any representation): the arguments alone. `C106_response`: responses."
  },
  {
   "property": "C107",
   "status": "proved",
   "theorems": [
    "Upd.C107_distorted",
    "Upd.C107_distorted_unbuffered",
    "Upd.C107_arrives",
    "Upd.C107_unaltered",
    "Upd.C107_perfect",
    "Upd.C107_one_argument",
    "Upd.C107_lost",
    "Upd.C107_lost_unbuffered"
   ],
   "note": "`C107_distorted`, `C107_distorted_unbuffered`: whole programs. `C107_arrives`, `C107_one_argument`, `C107_unaltered`, `C107_perfect`: what the altered calls are. `C107_lost`, `C107_lost_unbuffered`: lost bytes. The conditions `AllDecodeSafe` and `ResultsDecodeSafe` are needed: see C42 for what happens without them."
  },
  {
   "property": "C108",
   "status": "proved",
   "theorems": [
    "Upd.C108_messages",
    "Upd.C108_live",
    "Upd.C108_live_condition"
   ],
   "note": "`C108_messages`: whole programs, against records of an index and arguments. `C108_live`: destinations which modify messages; `C108_live_condition`: its condition is needed."
  },
  {
   "property": "C109",
   "status": "proved",
   "theorems": [
    "Upd.C109_retried",
    "Upd.C109_retried_unbuffered",
    "Upd.C109_executions",
    "Upd.C109_idempotent",
    "Upd.C109_once",
    "Upd.C109_void",
    "Upd.C109_stale"
   ],
   "note": "`C109_retried`, `C109_retried_unbuffered`: whole programs. `C109_executions`: how often a function is executed. `C109_idempotent`, `C109_once`: idempotent functions. `C109_void` and `C109_stale`: what is not guaranteed."
  },
  {
   "property": "C110",
   "status": "proved",
   "theorems": [
    "Upd.C110_layers",
    "Upd.C110_types",
    "Upd.C110_new",
    "Upd.C110_gateway"
   ],
   "note": "`C110_layers`: whole programs. `C110_types`: values returned, in any state of the links. `C110_new`: new devices. `C110_gateway`: translation between formats."
  },
  {
   "property": "C111",
   "status": "proved",
   "theorems": [
    "Upd.C111_coroutines",
    "Upd.C111_coroutines_unbuffered",
    "Upd.C111_atomic",
    "Upd.C111_progress",
    "Upd.C111_alone"
   ],
   "note": "`C111_coroutines`, `C111_coroutines_unbuffered`: any schedule. `C111_atomic`: calls are atomic. `C111_progress`: no deadlock. `C111_alone`: one coroutine."
  },
  {
   "property": "C112",
   "status": "proved",
   "theorems": [
    "Upd.C112_network",
    "Upd.C112_types",
    "Upd.C112_new",
    "Upd.C112_formats",
    "Upd.C112_rows"
   ],
   "note": "`C112_network`: outcome of programs. `C112_types`: types of results. `C112_new`: new devices are ready. `C112_formats`: platforms, dispatchers and formats do not matter. `C112_rows`: C110 is a particular case."
  },
  {
   "property": "C113",
   "status": "proved",
   "theorems": [
    "Upd.C113_unbuffered",
    "Upd.C113_put",
    "Upd.C113_read_from",
    "Upd.C113_write_to",
    "Upd.C113_process",
    "Upd.C113_send",
    "Upd.C113_receive"
   ],
   "note": "`C113_unbuffered`: dispatchers without buffers. `C113_put`, `C113_read_from`, `C113_write_to`, `C113_process`: buffered dispatchers, in any reachable state. `C113_send`, `C113_receive`: clients."
  },
  {
   "property": "C114",
   "status": "proved",
   "theorems": [
    "Upd.C114_dispatcher",
    "Upd.C114_action",
    "Upd.C114_send",
    "Upd.C114_receive",
    "Upd.C114_buffered",
    "Upd.C114_buffered_read",
    "Upd.C114_buffered_write",
    "Upd.C114_streams",
    "Upd.C114_stream_calls",
    "Upd.C114_stream_client",
    "Upd.C114_pointers"
   ],
   "note": "`C114_dispatcher`, `C114_action`: requests, on any iterators. `C114_buffered`, `C114_buffered_read`, `C114_buffered_write`: the same for buffered dispatchers, in any reachable state between two packets. `C114_send`, `C114_receive`: clients. `C114_streams`, `C114_stream_calls`, `C114_stream_client`: iterators on streams, any bytes. `C114_pointers`: the pointers of C64 are a case."
  },
  {
   "property": "C115",
   "status": "proved",
   "theorems": [
    "Upd.C115_object",
    "Upd.C115_tuple",
    "Upd.C115_set",
    "Upd.C115_send",
    "Upd.C115_receive",
    "Upd.C115_callback",
    "Upd.C115_dispatcher",
    "Upd.C115_integers",
    "Upd.C115_remote",
    "Upd.C115_dispatcher_integers",
    "Upd.C115_setting",
    "Upd.C115_buffered"
   ],
   "note": "`C115_object`, `C115_tuple`, `C115_set`: bytes and values. `C115_send`, `C115_receive`, `C115_callback`, `C115_dispatcher`, `C115_remote`: requests. `C115_integers`, `C115_dispatcher_integers`: on any bytes, callbacks and dispatchers behave as those on integers with the same object representations. `C115_setting`, `C115_buffered`: buffered dispatchers. Without the macro, see C72."
  },
  {
   "property": "C116",
   "status": "proved",
   "theorems": [
    "Upd.C116_specified",
    "Upd.C116_anywhere",
    "Upd.C116_overwritten",
    "Upd.C116_whole_packets"
   ],
   "note": "`C116_specified` (condition on the specification) and `C116_anywhere` (condition on what `is_loaded()` answers): the buffers may overlap. `C116_overwritten`: what happens if a byte is put too early. `C116_whole_packets`: programs which use `operator()`. Nothing is said of executions in which a function has undefined behaviour."
  },
  {
   "property": "C117",
   "status": "proved",
   "theorems": [
    "Upd.C117_pool",
    "Upd.C117_one_at_a_time"
   ],
   "note": "`C117_pool`: any program, any number of dispatchers. `C117_one_at_a_time`: a concrete execution which shows that the condition on the packets is needed. Nothing is said of executions in which a function or a stream has undefined behaviour, nor of what the program does after an exception."
  }
 ]
}