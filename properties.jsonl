{"id": "C01", "title": "Unsigned round trip", "statement": "Writing an unsigned integer (or bool) with write_as / tuple::set and reading it back with the same endianess gives back the same value.", "quantifier": "every unsigned width, every value of the type, both endianesses, every byte offset in every buffer large enough, every supported platform configuration", "why_tests_cant": "the value domain is up to 2^64 per type; tests try one value per mode", "anchors": ["include/upd/detail/serialization.hpp:read_as,write_as", "include/upd/detail/endianess.hpp:from_endianess,to_endianess"]}
{"id": "C02", "title": "Signed round trip", "statement": "Writing a signed integer and reading it back with the same endianess and signed mode gives back the same value, for every value the mode can represent.", "quantifier": "every signed width up to 8 bytes, every representable value, four signed modes, both endianesses, every supported platform configuration", "why_tests_cant": "the extreme values (the minimum of the type) behave differently from all sampled ones and depend on the width of int", "anchors": ["include/upd/detail/serialization.hpp:read_as,write_as", "include/upd/detail/signed_representation.hpp:to_signed_mode,from_signed_mode"]}
{"id": "C03", "title": "Exact unsigned wire format", "statement": "The bytes written for an unsigned integer are its base-256 digits, least significant first for LITTLE and most significant first for BIG, exactly sizeof(T) of them.", "quantifier": "every width, every value, both endianesses, every platform configuration", "why_tests_cant": "interoperability with a foreign device needs the exact bytes for every value", "anchors": ["include/upd/detail/endianess.hpp:to_endianess,to_endianess_impl"]}
{"id": "C04", "title": "Exact signed wire format", "statement": "The bytes written for a signed integer are the base-256 digits of its sign-magnitude, ones' complement, two's complement or offset-binary code on 8*sizeof(T) bits, as selected.", "quantifier": "every width up to 8, every representable value, four modes, both endianesses, every supported platform configuration", "why_tests_cant": "same as C03; bit-level formulas with masks and promotions are only sampled by tests", "anchors": ["include/upd/detail/signed_representation.hpp:to_signed_mode_impl", "include/upd/detail/serialization.hpp:write_as"]}
{"id": "C05", "title": "Write footprint", "statement": "Serializing a value modifies exactly the bytes [offset, offset+size) of the destination and no other byte, whatever the previous content.", "quantifier": "every serializable type without gaps, every value which the format can encode (C02), every offset, every buffer", "why_tests_cant": "an out-of-footprint write shows only when the neighbouring byte happens to matter", "anchors": ["include/upd/detail/serialization.hpp:write_as", "include/upd/tuple.hpp:tuple_base::set"]}
{"id": "C06", "title": "Unambiguous encoding", "statement": "Two different representable values of a type never have the same serialized bytes.", "quantifier": "every pair of representable values of every serializable type", "why_tests_cant": "quantifies over pairs of values", "anchors": ["include/upd/detail/serialization.hpp:write_as"]}
{"id": "C07", "title": "Decoding is total", "statement": "Reading any byte sequence as an integer yields a value in the range of the type and never undefined behaviour, since the bytes come from a remote device.", "quantifier": "every byte string of the right length, every integer type, every mode, endianess and platform", "why_tests_cant": "a malicious or corrupted peer may send any byte string; undefined behaviour is not observable by a test", "anchors": ["include/upd/detail/serialization.hpp:read_as", "include/upd/detail/signed_representation.hpp:from_signed_mode_impl"]}
{"id": "C08", "title": "Re-encoding decoded bytes", "statement": "Decoding a byte sequence as an integer then encoding the value gives the original bytes back, except for the negative-zero codes of sign-magnitude and ones' complement, which become the plain zero code; a byte decoded as a bool becomes 0 if it was 0, and 1 otherwise.", "quantifier": "every byte string of the right length, every mode and endianess", "why_tests_cant": "quantifies over all byte strings", "anchors": ["include/upd/detail/serialization.hpp:read_as,write_as"]}
{"id": "C09", "title": "Heterogeneous peers agree", "statement": "Bytes written on one platform are read as the same value on any other platform, whatever the host byte orders, widths of int and platform macros on the two sides.", "quantifier": "every pair of supported platforms, every type, every representable value", "why_tests_cant": "tests run on a single host", "anchors": ["include/upd/detail/endianess.hpp", "include/upd/detail/signed_representation.hpp", "include/upd/upd.hpp:platform_info"]}
{"id": "C10", "title": "Platform macros are transparent", "statement": "Truthfully defining UPD_PLATFORM_ENDIANESS or UPD_PLATFORM_SIGNED_MODE changes neither the bytes written nor the values read.", "quantifier": "every truthful macro configuration on little- and big-endian hosts, every type, value and mode", "why_tests_cant": "the native code paths are not even compiled by the test-suite and big-endian hosts are not available", "anchors": ["include/upd/detail/endianess.hpp:from_endianess,to_endianess", "include/upd/detail/signed_representation.hpp:from_signed_mode,to_signed_mode", "include/upd/upd.hpp:platform_info"]}
{"id": "C11", "title": "Unrepresentable minimum", "statement": "The minimum of a signed type, which sign-magnitude and ones' complement cannot represent, is the only value whose encoding is wrong or undefined: what happens to it is characterised exactly.", "quantifier": "every signed width, every mode, every width of int", "why_tests_cant": "the minimum is one value in 2^64 and the outcome depends on integer promotion", "anchors": ["include/upd/detail/signed_representation.hpp:to_signed_mode_impl"]}
{"id": "C12", "title": "Arrays are concatenations", "statement": "An array (C array or std::array) is serialized as the concatenation of the encodings of its elements in index order, and read back element-wise equal.", "quantifier": "every element type whose object size equals its serialized size, every length, every content", "why_tests_cant": "length and content are unbounded", "anchors": ["include/upd/detail/serialization.hpp:write_as,read_as (array overloads)"]}
{"id": "C13", "title": "User-extended types", "statement": "A type with a upd_extension is serialized as the concatenation of the encodings of the fields taken by unserialize, with no padding, whatever its object size, and read back by calling unserialize on the same field values.", "quantifier": "every field list, nesting, every list of values which the format can encode (C02)", "why_tests_cant": "arbitrary user types and nestings", "anchors": ["include/upd/detail/serialization.hpp:write_as,read_as (user overloads)", "include/upd/detail/serialization.hpp:make_view_for"]}
{"id": "C14", "title": "Arrays of user-extended types", "statement": "An array of user-extended values round trips and stays within the size announced for it.", "quantifier": "every user-extended element type, every object size, every length", "why_tests_cant": "depends on the relation between object size and serialized size, which is 1 point in the test-suite", "anchors": ["include/upd/detail/serialization.hpp:write_as (array overload)", "include/upd/tuple.hpp:serialization_size"]}
{"id": "C15", "title": "Tuple layout", "statement": "The storage of a tuple is exactly the concatenation of the encodings of its elements in order, its size is the sum of the element sizes, with no padding.", "quantifier": "every list of element types (for arrays of user-extended types whose object size differs from their serialized size, see C14) and every list of values the format can encode (see C02)", "why_tests_cant": "type lists and values are unbounded", "anchors": ["include/upd/tuple.hpp:tuple,tuple_base::size,lay"]}
{"id": "C16", "title": "Construct then get", "statement": "get<I>() on a tuple constructed from values returns the I-th value.", "quantifier": "every type list, index, endianess, signed mode, every list of values the format can encode (see C02), any pair of platforms", "why_tests_cant": "unbounded type lists and values", "anchors": ["include/upd/tuple.hpp:tuple,tuple_base::get"]}
{"id": "C17", "title": "Set then get", "statement": "set<I>(x) followed by get<I>() returns x, whatever the tuple held before.", "quantifier": "every tuple content (including arbitrary bytes), index, value which the format can encode (C02)", "why_tests_cant": "every prior content", "anchors": ["include/upd/tuple.hpp:tuple_base::set,get"]}
{"id": "C18", "title": "Set frame", "statement": "set<I>(x) leaves get<J>() unchanged for every J different from I.", "quantifier": "every tuple content, every pair of distinct indices, every value", "why_tests_cant": "every prior content and pair of indices", "anchors": ["include/upd/tuple.hpp:tuple_base::set,get"]}
{"id": "C19", "title": "Tuple refines a value list", "statement": "After any sequence of set calls, the elements of the tuple are those of a plain list of values updated by the same sequence.", "quantifier": "every sequence, of any length, of set operations with values which the format can encode (C02), every type list", "why_tests_cant": "histories are unbounded", "anchors": ["include/upd/tuple.hpp:tuple_base::set,get,invoke"]}
{"id": "C20", "title": "Set order independence", "statement": "Setting two different elements in either order gives the same storage.", "quantifier": "every pair of indices and of values which the format can encode (C02), every storage", "why_tests_cant": "every prior content", "anchors": ["include/upd/tuple.hpp:tuple_base::set"]}
{"id": "C21", "title": "Sub-views alias the tuple", "statement": "view<I, L>() reads and writes exactly elements I..I+L-1 of the tuple: get<J> of the view is get<I+J> of the tuple, set<J> through the view is set<I+J> on the tuple, and its bytes are the corresponding slice.", "quantifier": "every type list, slice, index, value and content", "why_tests_cant": "offset arithmetic for all type lists", "anchors": ["include/upd/tuple.hpp:tuple::view,tuple_view", "include/upd/detail/type_traits/typelist.hpp:clip,sum"]}
{"id": "C22", "title": "Assignment across formats", "statement": "Assigning a tuple-like object to a tuple of the same element types but another endianess / signed mode copies every element value; all elements are read before any is written, so an overlapping source is handled as a simultaneous copy.", "quantifier": "every type list, every content that the source can decode and the destination encode (C02, C07), pair of formats, overlap", "why_tests_cant": "aliasing and format pairs are unbounded", "anchors": ["include/upd/tuple.hpp:tuple_base::operator=,lay,lay_tuple"]}
{"id": "C23", "title": "Same-type view assignment", "statement": "Assigning a tuple_view to a tuple_view copies the elements into the viewed bytes.", "quantifier": "every pair of views", "why_tests_cant": "depends on overload resolution between the implicit and the template assignment operators", "anchors": ["include/upd/tuple.hpp:tuple_view,tuple_base::operator="]}
{"id": "C24", "title": "invoke forwards the elements", "statement": "invoke(f) calls f exactly once with the values get<0>(), get<1>(), ... in order and returns its result.", "quantifier": "every tuple whose elements can be decoded (C07), every callback", "why_tests_cant": "every callback and content", "anchors": ["include/upd/tuple.hpp:tuple_base::invoke"]}
{"id": "C25", "title": "Iterator-bound views", "statement": "A tuple_view bound through a non-pointer iterator behaves like one bound through a pointer: same values read, same bytes written, nothing outside the element touched.", "quantifier": "every type list, content, index, iterator position", "why_tests_cant": "depends on object size versus serialized size and on neighbouring content", "anchors": ["include/upd/detail/serialization.hpp:read_as,write_as (iterator overloads)", "include/upd/tuple.hpp:tuple_view"]}
{"id": "C26", "title": "Index type is wide enough and minimal", "statement": "keyring::index_t is the smallest of uint8/16/32/64 able to hold the number of callbacks, so every index and the size itself are representable and at least one index value is invalid.", "quantifier": "every number of callbacks below 2^64", "why_tests_cant": "the boundaries are at 2^8, 2^16, 2^32 callbacks", "anchors": ["include/upd/detail/type_traits/smallest.hpp:smallest_unsigned", "include/upd/keyring.hpp:index_t,size"]}
{"id": "C27", "title": "Indices identify callbacks", "statement": "The key of the I-th callback of a keyring carries index I; distinct callbacks get distinct indices, all below size.", "quantifier": "every keyring without duplicates", "why_tests_cant": "keyrings are unbounded", "anchors": ["include/upd/keyring.hpp:key_t,get", "include/upd/detail/type_traits/typelist.hpp:find"]}
{"id": "C28", "title": "C++11 and C++17 type-list algorithms agree", "statement": "at, max, find, sum, clip and make_index_sequence compute the same thing in their C++11 and C++17 implementations, so caller and callee may be built with different standards.", "quantifier": "every list and index in range", "why_tests_cant": "two different recursive implementations over unbounded lists", "anchors": ["include/upd/detail/type_traits/typelist.hpp", "include/upd/detail/type_traits/index_sequence.hpp"]}
{"id": "C29", "title": "Request packet format", "statement": "key(args...).write_to(dest) outputs exactly the encoding of the index followed by the encodings of the arguments in order, payload_length bytes in total.", "quantifier": "every key, every argument list, every endianess and mode", "why_tests_cant": "every signature and arguments", "anchors": ["include/upd/key.hpp:operator(),payload_length", "include/upd/detail/serialized_message.hpp"]}
{"id": "C30", "title": "Requests are self-delimiting", "statement": "No request packet of a keyring is a prefix of a different request packet, and a concatenation of requests determines the list of requests.", "quantifier": "every pair / list of requests of a keyring", "why_tests_cant": "quantifies over pairs and lists of packets", "anchors": ["include/upd/key.hpp:operator()", "include/upd/keyring.hpp"]}
{"id": "C31", "title": "Response decoding", "statement": "key.read_from(src) consumes exactly the serialized size of the return type from src and returns the value whose encoding was read; for void it consumes nothing.", "quantifier": "every return type, every value which the format can encode (C02), every continuation of the byte stream; any bytes at all for the return types which can be decoded from any bytes (C07)", "why_tests_cant": "every value and stream", "anchors": ["include/upd/key.hpp:read_from"]}
{"id": "C32", "title": "Action contract", "statement": "Invoking an action consumes exactly input_size() bytes from the source, calls the callback exactly once with the decoded arguments, then outputs exactly output_size() bytes encoding the returned value (none for void); all reads precede the call and all writes follow it.", "quantifier": "every signature, callback (stateful or throwing included), encoding of arguments; any bytes at all for the parameters which can be decoded from any bytes (C07)", "why_tests_cant": "every callback and byte string", "anchors": ["include/upd/action.hpp:call,insert,action,action_model"]}
{"id": "C33", "title": "no_storage_action is equivalent to action", "statement": "For the same callback, no_storage_action and action announce the same input and output sizes and have the same observable effect.", "quantifier": "every signature, callback and input", "why_tests_cant": "depends on object size versus serialized size of user types", "anchors": ["include/upd/action.hpp:no_storage_action,static_storage_duration_callback_wrapper", "include/upd/detail/type_traits/signature.hpp:parameters_size,return_type_size"]}
{"id": "C34", "title": "Empty action", "statement": "Invoking a default-constructed action reads nothing, writes nothing and calls nothing.", "quantifier": "every source and destination", "why_tests_cant": "absence of effect", "anchors": ["include/upd/action.hpp:action::operator()"]}
{"id": "C35", "title": "End-to-end call through a dispatcher", "statement": "If the bytes output by key(args...) are fed to a dispatcher of the same keyring, the callback of that key is called exactly once with args..., and reading the output with the key yields the value it returned.", "quantifier": "every keyring, key, arguments and returned value which the format can encode on both sides (C02), callback, endianess, signed mode, pair of platforms which support the format (C10)", "why_tests_cant": "composition over all values and callbacks", "anchors": ["include/upd/dispatcher.hpp:operator()", "include/upd/key.hpp"]}
{"id": "C36", "title": "Unknown index is ignored", "statement": "When the extracted index is not below size, the dispatcher calls no callback, outputs nothing, consumes only the index bytes and returns that index.", "quantifier": "every invalid index, every stream", "why_tests_cant": "every invalid index", "anchors": ["include/upd/dispatcher.hpp:operator(),get_action,get_index"]}
{"id": "C37", "title": "replace is local", "statement": "After replace<I>(f), requests for index I call f and requests for every other index are handled as before.", "quantifier": "every dispatcher, index, callback, request", "why_tests_cant": "every request", "anchors": ["include/upd/dispatcher.hpp:replace,operator[]"]}
{"id": "C38", "title": "get_action agrees with operator()", "statement": "get_action(src) returns the action operator() would call and null exactly when it would call none.", "quantifier": "every stream", "why_tests_cant": "every index value", "anchors": ["include/upd/dispatcher.hpp:get_action,operator()"]}
{"id": "C39", "title": "Packet status protocol", "statement": "Feeding a request byte by byte, put returns LOADING_PACKET for every byte but the last and RESOLVED_PACKET for the last one; the callback is called at the last byte and not before.", "quantifier": "every buffered dispatcher, every request whose response fits in the output buffer (C43), every state reached without an exception (C51)", "why_tests_cant": "every request and every state reached between packets", "anchors": ["include/upd/buffered_dispatcher.hpp:put,call"]}
{"id": "C40", "title": "Invalid packet is dropped", "statement": "If the index bytes form an invalid index, put returns DROPPED_PACKET exactly on the last of them, no callback is called, the next byte starts a new packet, and the output not read yet is preserved (with a single buffered dispatcher, whose only buffer receives these bytes, there must be none).", "quantifier": "every state between packets, every invalid index", "why_tests_cant": "every history", "anchors": ["include/upd/buffered_dispatcher.hpp:put"]}
{"id": "C41", "title": "Stream framing", "statement": "For every sequence of bytes put into a buffered dispatcher, the callbacks called, their arguments and order, and the statuses returned are those given by cutting the stream into an index and the argument bytes of that index, repeatedly.", "quantifier": "every byte stream of any length, every keyring, every callback (stateful included)", "why_tests_cant": "histories of unbounded length", "anchors": ["include/upd/buffered_dispatcher.hpp:put,call"]}
{"id": "C42", "title": "Input buffer safety", "statement": "No sequence of put / get / read_from / write_to calls makes the dispatcher access its input buffer out of bounds.", "quantifier": "every history, every keyring", "why_tests_cant": "memory safety over all histories", "anchors": ["include/upd/buffered_dispatcher.hpp:put,call,needed_input_buffer_size", "include/upd/detail/type_traits/signature.hpp:map_parameters_size"]}
{"id": "C43", "title": "Output buffer safety", "statement": "No request makes the dispatcher write its response out of the bounds of its output buffer.", "quantifier": "every keyring, every request", "why_tests_cant": "depends on the signatures of the keyring: the tests only use signatures whose result is no larger than their parameters", "anchors": ["include/upd/buffered_dispatcher.hpp:needed_output_buffer_size,call"]}
{"id": "C44", "title": "read_from consumes exactly one packet", "statement": "read_from(src) consumes exactly the bytes missing to complete or drop the current packet, never returns LOADING_PACKET, and has the same effect as putting these bytes one by one.", "quantifier": "every reachable state (including mid-packet), every stream which completes the packet", "why_tests_cant": "every state and stream", "anchors": ["include/upd/buffered_dispatcher.hpp:read_from"]}
{"id": "C45", "title": "Output is a FIFO", "statement": "After a packet is resolved, successive get calls return the bytes of the response in order; is_loaded tells exactly whether a byte remains; write_to outputs all the remaining bytes and empties the buffer; get on an empty buffer returns 0 and changes nothing.", "quantifier": "every response, every interleaving of get / is_loaded / write_to", "why_tests_cant": "every state", "anchors": ["include/upd/buffered_dispatcher.hpp:get,write_to,is_loaded"]}
{"id": "C46", "title": "Full-duplex independence", "statement": "With a double buffered dispatcher, reading out a response while the next request is being received alters neither: any interleaving of get calls with put calls gives the same callbacks, statuses and output as the abstract machine with separate input and output queues.", "quantifier": "every interleaving of put and get", "why_tests_cant": "interleavings are unbounded", "anchors": ["include/upd/buffered_dispatcher.hpp:double_buffered_dispatcher"]}
{"id": "C47", "title": "Single buffer under half-duplex use", "statement": "A single buffered dispatcher gives the same callbacks, statuses and output as a double buffered one whenever each response is drained before the next byte is put.", "quantifier": "every history respecting the discipline", "why_tests_cant": "histories are unbounded", "anchors": ["include/upd/buffered_dispatcher.hpp:single_buffered_dispatcher"]}
{"id": "C48", "title": "operator() on buffered dispatchers", "statement": "operator()(src, dest) is read_from then write_to if and only if the packet was resolved, and on a whole request has the same observable effect as the unbuffered dispatcher.", "quantifier": "every stream and state; for the comparison with the unbuffered dispatcher, every request whose response fits in the output buffer (C43), between two packets", "why_tests_cant": "every stream", "anchors": ["include/upd/buffered_dispatcher.hpp:operator()", "include/upd/dispatcher.hpp:operator()"]}
{"id": "C49", "title": "reply forwards the response", "statement": "reply(output, k) returns true only if the whole response is still in the buffer and fits the buffer of k; it then outputs a request for k whose buffer argument starts with the response bytes, and empties the output buffer; otherwise it returns false and does nothing.", "quantifier": "every state, key and response", "why_tests_cant": "every state", "anchors": ["include/upd/buffered_dispatcher.hpp:reply"]}
{"id": "C50", "title": "Moving a dispatcher mid-packet", "statement": "Moving a buffered dispatcher at any point of a packet or a response and going on with the new object has the same effect as not moving it.", "quantifier": "every reachable state and continuation", "why_tests_cant": "every point of every history", "anchors": ["include/upd/buffered_dispatcher.hpp:single_buffered_dispatcher,double_buffered_dispatcher (implicit moves)"]}
{"id": "C51", "title": "Throwing callbacks", "statement": "If a callback throws, the dispatcher remains usable: the next request is processed normally.", "quantifier": "every state, every throwing callback", "why_tests_cant": "crash points; tests use no throwing callback", "anchors": ["include/upd/buffered_dispatcher.hpp:call,put", "include/upd/python.hpp:define_pykey (__make_action)"]}
{"id": "C52", "title": "Throwing or exhausted byte source", "statement": "If the byte getter given to read_from throws, the dispatcher keeps the bytes received so far and a later read_from resumes the packet as if nothing happened.", "quantifier": "every point at which the getter may throw", "why_tests_cant": "crash points", "anchors": ["include/upd/buffered_dispatcher.hpp:read_from"]}
{"id": "C53", "title": "Deferred response hook", "statement": "An action obtained with key.with_hook(f), invoked on the response bytes of the key, calls f exactly once with the value returned remotely.", "quantifier": "every key, value which the format can encode (C02), hook whose parameter is of the type returned by the function (see C66)", "why_tests_cant": "every value", "anchors": ["include/upd/key.hpp:with_hook", "include/upd/action.hpp"]}
{"id": "C54", "title": "Python encode / decode", "statement": "For every key exposed to Python, encode(args) returns exactly the request packet and decode(response) the value returned remotely; Client.call composes them.", "quantifier": "every key and arguments", "why_tests_cant": "every signature and value", "anchors": ["include/upd/python.hpp:define_pykey", "py/unpadded/client.py:Client.call"]}
{"id": "C55", "title": "Stored callbacks are copies", "statement": "An action owns a copy of the callback it was built from: later changes to the original object do not affect it.", "quantifier": "every callback object, value category and later mutation", "why_tests_cant": "depends on template argument deduction for lvalues and on later mutations", "anchors": ["include/upd/action.hpp:action(F&&),action_model_impl", "include/upd/key.hpp:with_hook"]}
{"id": "C56", "title": "Interrupt-driven output", "statement": "On a double buffered dispatcher, an interrupt handler putting a byte between the two steps of a get() (test, then fetch) never makes get() read out of bounds or deliver a byte twice.", "quantifier": "every reachable state, every byte, every interruption point", "why_tests_cant": "schedules", "anchors": ["include/upd/buffered_dispatcher.hpp:get,put", "README.md"]}
{"id": "C57", "title": "Default-constructed tuple", "statement": "A default-constructed tuple holds zeros: get<I>() returns the zero of the I-th type, in every format (even offset binary, whose zero is not made of null bytes).", "quantifier": "every type list, endianess, signed mode, every platform which supports the format (C10)", "why_tests_cant": "Tests check a few type lists on one platform; the claim ranges over all type lists and formats.", "anchors": ["include/upd/tuple.hpp:tuple()"]}
{"id": "C58", "title": "Sending from an interrupt handler", "statement": "On a double buffered dispatcher, an interrupt handler which sends the next byte of the output (if is_loaded()) while put() is completing a request has the same effect as if it had run just before or just after put().", "quantifier": "every reachable state, every byte, every interruption point, every sending function", "why_tests_cant": "Needs every interleaving of the handler with put(), in every state of the dispatcher.", "anchors": ["include/upd/buffered_dispatcher.hpp:call,put,get,is_loaded", "README.md:24"]}
{"id": "C59", "title": "Replacing callbacks at any time", "statement": "Replacing a callback of a buffered dispatcher (replace<Index>(...) of the C++ classes, replace(key, function) of the Python class with a key of its keyring) at any moment, even in the middle of a request or while a response is being sent, changes the callback that the next completed requests for that index call, and nothing else: statuses, framing, bytes already received and bytes to be sent are those of a dispatcher whose packets are served by the callbacks in force when the last byte of the packet arrives.", "quantifier": "every keyring whose responses fit in the output buffer and whose parameters can be decoded, every reachable state, every sequence of put, get, is_loaded and replacements", "why_tests_cant": "Needs every interleaving of replacements with the bytes of requests and responses, for every keyring.", "anchors": ["include/upd/buffered_dispatcher.hpp:replace", "include/upd/dispatcher.hpp:replace", "include/upd/python.hpp:declare_dispatcher"]}
{"id": "C60", "title": "User-provided buffers", "statement": "A class derived from buffered_dispatcher with its own input and output buffers (distinct or one and the same), whatever their initial content, behaves like the provided classes (statuses, framing, calls, bytes sent) provided that the input buffer holds the index and the arguments of each request and the output buffer holds each response. No smaller buffer will do: a request larger than the input buffer or a response larger than the output buffer is written past its end.", "quantifier": "every keyring, all buffer sizes and contents, every sequence of put, get, is_loaded and replacements", "why_tests_cant": "Needs every keyring, every pair of buffers and every sequence of calls; a write past the end of a buffer need not be visible in a test.", "anchors": ["include/upd/buffered_dispatcher.hpp:buffered_dispatcher", "doc/callee.rst.in"]}
{"id": "C61", "title": "Remote calls are local calls", "statement": "Over a link which neither loses nor reorders bytes, a program which calls functions of another device through keys and a dispatcher (writing each request, letting the callee serve it, reading the response) obtains the same results and the same effects in the same order as if it had called the functions directly, including when a function throws. It is so whether each response is awaited before the next request is written or all the requests are written first, whatever the platforms of both devices. No byte is left on the link.", "quantifier": "every keyring whose responses fit in the output buffer (C43), every pair of platforms which support its policies, every sequence of calls whose arguments are representable on both sides, every reachable state of a buffered dispatcher and every unbuffered dispatcher", "why_tests_cant": "Needs every sequence of calls on every keyring and both kinds of dispatchers; tests exercise one request and one response at a time, on one platform.", "anchors": ["include/upd/key.hpp:operator(),operator>>", "include/upd/buffered_dispatcher.hpp:read_from,write_to", "include/upd/dispatcher.hpp:operator()", "test/snippet/caller1.cpp", "test/snippet/callee1.cpp"]}
{"id": "C62", "title": "Deferred responses", "statement": "The action returned by with_hook, when it is given the response to a request, calls the hook exactly once, with the value returned by the remote function (with nothing if the function returns void), the effects being those of the local composition of the function and the hook. It is so when the response is given directly to the action, and when the callee sends it as a request (reply) to a dispatcher of the caller whose function gives it to the action.", "quantifier": "every keyring whose responses fit in the output buffer (C43), every pair of platforms which support its policies, every sequence of calls with their hooks, every reachable state of the dispatchers on both sides", "why_tests_cant": "Needs every signature, value and hook, and every state of two dispatchers at once.", "anchors": ["include/upd/key.hpp:with_hook", "include/upd/buffered_dispatcher.hpp:reply", "include/upd/action.hpp:operator()", "test/snippet/caller5.cpp"]}
{"id": "C63", "title": "Interrupt-driven callee of the documentation", "statement": "With the handlers of the example program (on_byte_received puts the byte and starts to send the response when the packet is resolved, on_byte_sent sends the next byte), the bytes sent to the caller are exactly those of the responses: once the response has been completely sent, on_byte_sent has no effect. A packet whose index is unknown causes nothing to be sent and calls no function.", "quantifier": "every keyring, every request, every reachable state between two packets, any number of interrupts after the last byte of the request", "why_tests_cant": "The test program ignores the bytes sent; needs every response (including none) and any number of interrupts.", "anchors": ["test/snippet/slave1.cpp", "include/upd/buffered_dispatcher.hpp:get,put", "doc/callee.rst.in:52"]}
{"id": "C64", "title": "Streams given as iterators; processing in place", "statement": "Dispatchers, actions, keys and buffered dispatchers given iterators on an array read the request from the input position and store the response at the output position, whatever the two positions are: the arguments are those of the request even when the response overwrites it, and no byte outside of the response is modified. In particular a request written in a buffer, processed with the same buffer as input and output, then read back from it, gives the result of the callback.", "quantifier": "every keyring, function, arguments which the format can encode (C02), array, positions (overlapping or not), callbacks which may modify the array, throw or return any value", "why_tests_cant": "One test with one function and equal positions; needs every overlap, signature and size of response.", "anchors": ["include/upd/detail/io/immediate_process.hpp", "include/upd/detail/io/immediate_reader.hpp", "include/upd/detail/io/immediate_writer.hpp", "test/buffered_dispatcher.cpp:274"]}
{"id": "C65", "title": "Arguments of other types", "statement": "An argument which is not of the type of the parameter (wider or narrower integer, other signedness, bool) is converted as in an ordinary C++ call: set, the constructor of tuples, assignment between tuples and views of different element types, and remote calls all store, transmit and give back the converted value.", "quantifier": "every element type, every integer or bool given, every endianness and signed mode, every keyring and function, every source of the assignment including those which overlap the destination or have more elements", "why_tests_cant": "The conversion rules depend on the value and both types; tests give a few literals of the right type.", "anchors": ["include/upd/tuple.hpp:set,lay,operator=", "include/upd/key.hpp:operator()"]}
{"id": "C66", "title": "Hooks whose parameter is of another type", "statement": "A hook given to with_hook which can be called on the value returned by the remote function, up to an implicit conversion, is called on that value, and its action takes exactly the response from the byte source.", "quantifier": "every key, every hook with one parameter, every returned value, every byte source", "why_tests_cant": "Tests use hooks with the very type returned by the function.", "anchors": ["include/upd/key.hpp:with_hook", "include/upd/action.hpp:call"]}
{"id": "C67", "title": "Invoking an action several times", "statement": "Each invocation of an action is one call of operator() of its callback object, in the state left by the previous invocation, with the arguments of its own request, and gives the response of that call; an object which a call does not modify gives the same response each time. Objects whose operator() has no ref-qualifier are accepted whether given as temporaries or lvalues.", "quantifier": "every callback object and signature, any number of invocations, any arguments", "why_tests_cant": "Needs any number of invocations and any evolution of the object.", "anchors": ["include/upd/action.hpp:action_model", "include/upd/tuple.hpp:invoke_impl", "include/upd/detail/type_traits/signature.hpp"]}
{"id": "C68", "title": "Callbacks which replace actions", "statement": "A callback may replace any action of its dispatcher while it runs, its own included: its response is sent all the same, and each later request is served by the callback which is in place when it comes. It can still use its captures, unless it has replaced its own action and this action owns it (ANY, callback given to replace as an rvalue).", "quantifier": "every keyring, both kinds of actions, any callbacks which modify the actions in any way, any sequence of requests", "why_tests_cant": "The effect depends on the lifetime of the object which holds the running callback, and on the whole history of replacements; tests replace actions between requests only.", "anchors": ["include/upd/dispatcher.hpp:operator(),replace", "include/upd/action.hpp:call,action_model"]}
{"id": "C69", "title": "Byte sources which replace actions", "statement": "A byte source may replace actions while it gives a request: the callback called is the one which is in place once the index has been read.", "quantifier": "every keyring, both kinds of actions, any byte source which modifies the actions in any way", "why_tests_cant": "Needs a source which calls back into the dispatcher in the middle of a request, for any position in the request.", "anchors": ["include/upd/dispatcher.hpp:operator(),replace", "include/upd/action.hpp:call,action_model"]}
{"id": "C70", "title": "User extensions", "statement": "A user-extended object is represented by the encodings of the last values which serialize gave to each element of the view, one after the other, whatever the order in which they are set; it is given back, on any platform, as soon as unserialize called on these values gives it back. An element which is not set keeps the bytes which were there.", "quantifier": "every type, every pair of functions serialize and unserialize, every object, every endianness and signed mode, every pair of platforms", "why_tests_cant": "serialize and unserialize are arbitrary user code; tests exercise one extension which sets its elements in order.", "anchors": ["include/upd/detail/serialization.hpp:read_as,write_as", "include/upd/tuple.hpp:set,invoke"]}
{"id": "C71", "title": "Packets with a header and a checksum", "statement": "The packet encoder and decoder of the documentation work: the bytes sent are the header, the data and the checksum of the encoding of the data; a receiver on any platform finds the header and the data, and the checksum it computes over the received bytes is the one which it received.", "quantifier": "every header, data and checksum types, every value, every checksum function, every endianness and signed mode, every pair of platforms", "why_tests_cant": "The snippet is compiled with one list of types, one checksum and literal values, and is never run against a receiver.", "anchors": ["include/upd/tuple.hpp:tuple,set,get,begin,end", "test/snippet/serialization1"]}
{"id": "C72", "title": "Floating-point arguments", "statement": "A `float` or `double` placed in a tuple or passed to a key (both are accepted by the overloads for signed integers) is read back as it was written, in every signed mode in which the program compiles.", "quantifier": "every finite number, both types, every endianness and signed mode, every platform", "why_tests_cant": "No test uses a floating-point argument; which numbers survive depends on the value, the signed mode and the platform.", "anchors": ["include/upd/detail/type_traits/require.hpp:require_signed_integer", "include/upd/detail/serialization.hpp:read_as,write_as", "include/upd/detail/signed_representation.hpp:to_signed_mode,from_signed_mode"]}
{"id": "C73", "title": "Resynchronisation", "statement": "A caller which has stopped in the middle of a request can bring the callee back between two packets: after any history, sending as many filler bytes (bytes which are not the index of a function) as the longest argument list leaves the dispatcher ready for a new request. At most one function is called meanwhile, the one whose request was interrupted, on the bytes received completed by filler bytes.", "quantifier": "every keyring of fewer than 256 functions whose parameters can be decoded (C07) and responses fit (C43), callbacks without exception, every reachable state of both kinds of buffered dispatchers, every filler byte, every number of filler bytes", "why_tests_cant": "No test interrupts a request; the state in which the callee is left depends on the whole history.", "anchors": ["include/upd/buffered_dispatcher.hpp:put", "include/upd/dispatcher.hpp:get_index"]}
{"id": "C74", "title": "Names of the keys in Python", "statement": "Once a keyring whose functions have distinct names has been exposed to Python, the key of every function is the attribute of the module which has the name of the function; the attributes which are not about the keyring are left as they were.", "quantifier": "every keyring, every name, namespace and parameter list, every previous content of the module", "why_tests_cant": "The name is recovered from a demangled type by a regular expression; the tests expose one keyring of six global callables.", "anchors": ["include/upd/python.hpp:demangle,demangled_fname,define_pykey,define_pykeys,unpack_keyring,declare_dispatcher"]}
{"id": "C75", "title": "Devices which run at the same time", "statement": "A caller which makes calls one after the other and a callee served by a buffered dispatcher run at the same time, connected by channels of any capacity. Whatever the order in which bytes are sent, transmitted, put and got, the calls return what the same calls made locally return, the state of the callee evolves likewise, nothing fails, the system never blocks before all the calls have returned, and at the end no byte is left anywhere.", "quantifier": "every keyring whose responses fit in the output buffer (C43), every pair of platforms which support the format (C10), every sequence of calls which return and whose arguments are representable on both sides, every capacity, every interleaving of the steps of both devices", "why_tests_cant": "The number of interleavings is exponential and the tests run the caller and the callee in one thread, in alternation.", "anchors": ["include/upd/key.hpp:operator(),write_to,read_from", "include/upd/buffered_dispatcher.hpp:put,get,is_loaded"]}
{"id": "C76", "title": "Versions of a keyring", "statement": "Functions can be added at the end of a keyring without updating the devices already built: as long as their number does not pass 255, 65535 or 4294967295, the functions of the earlier version keep their keys, a caller built with the earlier version calls a callee built with the later one (and conversely, for the functions both know) and gets what local calls would give. When the number passes one of these bounds, the packets of all the functions change.", "quantifier": "every pair of keyrings whose responses fit in the output buffer (C43), every pair of platforms, every sequence of calls, every state of the dispatcher between packets", "why_tests_cant": "Tests build the caller and the callee from the same keyring.", "anchors": ["include/upd/keyring.hpp:get,index_t", "include/upd/key.hpp:operator(),read_from", "include/upd/buffered_dispatcher.hpp:operator()", "include/upd/dispatcher.hpp:operator()"]}
{"id": "C77", "title": "The programs of the front page", "statement": "With the handler of the front page (the bytes of a transmission are put into the dispatcher until one of them is answered by DROPPED_PACKET), the callee calls exactly the functions requested, once each and in order, however requests are grouped or split between transmissions. A transmission which is empty, or which contains an index of no function, calls nothing beyond the requests that precede it and does not affect the following transmissions. The caller of the front page obtains the effects of local calls.", "quantifier": "every keyring whose responses fit in the output buffer (C43), every pair of platforms which support the format (C10), every sequence of calls and of transmissions (empty and spoilt ones included), every state of the dispatcher between packets", "why_tests_cant": "The program of the front page is not tested; needs every grouping of requests into transmissions and any garbage after an invalid index.", "anchors": ["README.md:caller.cpp", "README.md:callee.cpp", "include/upd/buffered_dispatcher.hpp:put", "include/upd/key.hpp:operator()"]}
{"id": "C78", "title": "Multimaster architecture", "statement": "Two devices which both call the functions of the other one, serve its calls with a buffered dispatcher, and answer with reply() when is_loaded(), work together: each call is served exactly once, calls of one device in the order in which it made them; the callback hooked to a call which returns a value is called exactly once, on this value, after it was returned, in the order of the calls; nothing fails, the devices come to rest after a fixed number of steps, and nothing is then in transit. If reply() is called after each packet instead, a single call of a function which returns nothing makes them reply to each other for ever.", "quantifier": "every pair of keyrings, platforms and kinds of dispatchers, every sequence of calls of each device, every interleaving of the calls and of the bytes received by both devices", "why_tests_cant": "The tests do one call in one direction at a time, with whole packets; the interleavings of two independent programs are exponentially many, and the endless exchange of replies cannot be observed in a finite test.", "anchors": ["include/upd/buffered_dispatcher.hpp:put,reply,is_loaded", "include/upd/key.hpp:operator(),with_hook", "include/upd/action.hpp:operator()", "doc/caller.rst.in:multimaster"]}
{"id": "C79", "title": "Requests sent without waiting for the responses", "statement": "A caller may write several requests before it reads the responses: provided that the callee puts no byte while is_loaded(), each call returns what the same call would return locally, in order, with the same effects; nothing fails, the system comes to rest after a fixed number of steps, and nothing is then left in the channels nor in the buffers. This holds for channels of any capacity if the caller reads and writes at the same time. If it writes all the requests first, it holds exactly when, wherever the sequence of calls is cut, the responses to the first part fit in the channel to the caller or the requests of the second part fit in the channel to the callee; otherwise no call ever returns. If the callee puts bytes while is_loaded(), a call may return the result of the following one, even if the input and output buffers are distinct.", "quantifier": "every keyring whose responses fit in the output buffer (C43), every pair of platforms which support the format (C10), every sequence of calls, every capacity of the channels, every interleaving of the steps of the caller, of the callee and of the channels", "why_tests_cant": "The tests wait for each response before the next request, and everything runs in one thread; neither the interleavings nor the capacities can be enumerated.", "anchors": ["include/upd/key.hpp:operator(),read_from", "include/upd/buffered_dispatcher.hpp:put,get,is_loaded", "include/upd/detail/serialized_message.hpp:write_to"]}
{"id": "C80", "title": "Callbacks of a keyring", "statement": "Any callback which a keyring accepts can be served: the key made from the keyring and the slot of a dispatcher built from the same keyring have the signature of the callback, with both kinds of actions and in every version of the language.", "quantifier": "every function type and every class with an operator() of any qualifiers, both action features, C++11, C++14 and C++17", "why_tests_cant": "The set of types is infinite, a type which is refused does not compile, so that no test can contain it; test/keyring.cpp builds keyrings of objects but no dispatcher from them.", "anchors": ["include/upd/detail/type_traits/signature.hpp:examine_invocable,is_invocable", "include/upd/typelist.hpp:flist_t", "include/upd/keyring.hpp:signatures_t,key_t", "include/upd/dispatcher.hpp:make_action,replace"]}
{"id": "C81", "title": "Byte streams which compile", "statement": "A byte getter or putter which meets the requirement of the library (it can be called without argument and its result converts to a byte; it can be called on a byte and returns nothing) can be given to keys, to actions and to dispatchers alike.", "quantifier": "every function, pointer to function and class with any number of operator(), every value category and qualifier, every conversion relation between types, C++11, C++14 and C++17", "why_tests_cant": "The set of types is infinite; a type which is refused does not compile, so that no test can contain it.", "anchors": ["include/upd/detail/type_traits/require.hpp:require_input_invocable,require_output_invocable", "include/upd/detail/type_traits/signature.hpp:has_signature", "include/upd/detail/function_reference.hpp:make_function_reference", "include/upd/action.hpp:operator()", "include/upd/key.hpp:read_from", "include/upd/detail/serialized_message.hpp:write_to"]}
{"id": "C82", "title": "Import hook of the Python package", "statement": "Importing a C++ module through the hook gives the module built from its present sources, or leaves the import to the other finders, or propagates the exception; whatever happens meanwhile (failures, exceptions, nested imports, imports of other threads), the hook is then enabled again, has built at most this module and has touched no other extension file. Modules imported while another one is being loaded are found like the others.", "quantifier": "every behaviour of the functions of cppimport (results, exceptions, imports made meanwhile to any depth), every state of the extension files, every sequence of imports", "why_tests_cant": "The test imports one module, once, successfully; failures and nested imports cannot be enumerated.", "anchors": ["py/unpadded/hook.py:Hook.find_spec"]}
{"id": "C83", "title": "Buffered dispatchers with other base classes", "statement": "A class written by the user which derives from buffered_dispatcher and provides the buffers behaves like the provided classes whatever its other base classes and whether or not it has virtual functions.", "quantifier": "every list of base classes before and after buffered_dispatcher (empty or not, with or without virtual functions, any size and alignment), classes with and without virtual functions, every keyring, all buffers, every sequence of calls", "why_tests_cant": "The tests only instantiate the two provided classes, whose only base class is buffered_dispatcher.", "anchors": ["include/upd/buffered_dispatcher.hpp:derived", "doc/callee.rst.in:47"]}
{"id": "C84", "title": "Types of parameters and results", "statement": "A function whose parameters and result are of the types which the library announces as serializable, taken and returned by value or by reference, can be served by any dispatcher and called through its key.", "quantifier": "every type built from arithmetic types, extended classes (with or without default constructor), C arrays and std::array of any nesting; by value, const or not, lvalue or rvalue reference; both action features; arguments of any value category", "why_tests_cant": "A test program only contains functions which compile; the requirement which the library checks (`is_serializable`) does not look at the bodies.", "anchors": ["include/upd/tuple.hpp:normalize", "include/upd/detail/serialization.hpp:read_as", "include/upd/detail/serialization.hpp:is_serializable", "include/upd/action.hpp:action_model", "include/upd/key.hpp:operator()"]}
{"id": "C85", "title": "Raw bytes of tuples and views", "statement": "A tuple or a view is an array of bytes: after any sequence of `set<I>` and of bytes written through `operator[]` or `begin()`, the bytes from `begin()` to `end()` are those of an array on which the same writes were performed in the same order, and `get<I>` decodes the bytes of its own element, whatever wrote them. Writing one byte changes the value of no other element, and filling the range from received bytes makes `get` return what these bytes encode.", "quantifier": "every platform, format, list of types whose elements are packed, position in memory, sequence of writes and initial content", "why_tests_cant": "The claim ranges over all interleavings of two ways of writing, at all byte positions.", "anchors": ["include/upd/tuple.hpp:operator[]", "include/upd/tuple.hpp:begin", "include/upd/tuple.hpp:end", "include/upd/tuple.hpp:set", "include/upd/tuple.hpp:get"]}
{"id": "C86", "title": "Copies between tuples and views: what compiles", "statement": "A tuple or a view which can be modified can be assigned from any tuple-like object with the same types of elements, whatever the formats; elements can be set from what `get` returns; nothing can be set through a const tuple or through a view of a const tuple; an assignment which compiles converts each element.", "quantifier": "every pair of classes (tuples, views over mutable or const bytes, formats, types of elements), constness and value category of both sides", "why_tests_cant": "An assignment which does not compile cannot be in a test; those of the tests are from temporaries without arrays.", "anchors": ["include/upd/tuple.hpp:operator=", "include/upd/tuple.hpp:lay_tuple", "include/upd/tuple.hpp:set", "include/upd/tuple.hpp:get", "include/upd/detail/type_traits/is_tuple.hpp:is_tuple"]}
{"id": "C87", "title": "Callbacks which use the buffered dispatcher that runs them", "statement": "A callback may call the member functions of the buffered dispatcher which is running it, for instance to check `is_loaded`, to read pending bytes or to hand over bytes which arrived meanwhile: no call leaves the buffers of the dispatcher, whatever the callback does with the results.", "quantifier": "every platform, keyring, set of callbacks given as programs over the member functions, history of `put`, `get` and `is_loaded`, and initial state of the world", "why_tests_cant": "The claim ranges over all programs a callback can be, at every point of every history; an overrun of the input buffer by one byte is silent in a test.", "anchors": ["include/upd/buffered_dispatcher.hpp:put", "include/upd/buffered_dispatcher.hpp:get", "include/upd/buffered_dispatcher.hpp:is_loaded", "include/upd/buffered_dispatcher.hpp:read_from", "include/upd/buffered_dispatcher.hpp:write_to", "include/upd/buffered_dispatcher.hpp:reply", "include/upd/buffered_dispatcher.hpp:call"]}
{"id": "C88", "title": "Throwing byte sinks", "statement": "When a byte putter throws, the exception reaches the caller, no callback is called again, and the putter has been called on the first bytes of the packet, in order, each once. A buffered dispatcher goes on after the refused byte: over any number of calls of `write_to`, each byte of the response is given to a putter exactly once, and the requests being received are not affected. The refused byte is not given again, and a `reply` which throws loses the whole response.", "quantifier": "every keyring, arguments, callback, response, state of the dispatcher, sequence of putters and position at which each of them throws", "why_tests_cant": "The claim ranges over all positions of all exceptions, over any number of attempts.", "anchors": ["include/upd/detail/serialized_message.hpp:write_to", "include/upd/dispatcher.hpp:operator()", "include/upd/buffered_dispatcher.hpp:write_to", "include/upd/buffered_dispatcher.hpp:operator()", "include/upd/buffered_dispatcher.hpp:reply"]}
{"id": "C89", "title": "Environment of the Python package", "statement": "Importing the Python package keeps the compilers which CC and CXX designate, the C compiler being run through ccache; importing it in a child process does not change the environment further; a failed import has no effect. Extension modules are compiled with the include directories last given to `set_extra_include_dirs`.", "quantifier": "every environment, pair of compilers Python has been built with, presence or absence of ccache, and history of imports, reloads and child processes", "why_tests_cant": "A test runs in one environment, where the package is imported once by one process; the claim ranges over all environments and all depths of child processes.", "anchors": ["py/unpadded/__init__.py", "py/unpadded/hook.py:setup_unpadded", "py/unpadded/hook.py:set_extra_include_dirs"]}
{"id": "C90", "title": "Byte streams of any kind", "statement": "Wherever the library takes a byte stream, a functor and an iterator are interchangeable, independently for the input and the output: dispatchers, actions and keys take their bytes from the input, call the callback once and give the bytes of the answer to the output, and exceptions of the callback or of the output reach the caller. Iterators are passed by value, so several messages through one back inserter follow each other, and several messages through one pointer are stored at the same position. A stream which is neither functor nor iterator, or any stream on a const dispatcher, does not compile; a stream which is both is ambiguous or used as an iterator.", "quantifier": "every pair of streams (any iterator classes, any effects), keyring, arguments, callback, sequence of messages, and every combination of kinds and constness", "why_tests_cant": "The claim ranges over all iterator classes and functors, including those which throw or share their state, in all combinations, over sequences of messages of any length.", "anchors": ["include/upd/detail/io/immediate_process.hpp:immediate_process", "include/upd/detail/io/immediate_reader.hpp:immediate_reader", "include/upd/detail/io/immediate_writer.hpp:immediate_writer", "include/upd/detail/type_traits/require.hpp:require_input_byte_iterator", "include/upd/action.hpp:operator()"]}
{"id": "C91", "title": "Python objects as arguments, results and bytes", "statement": "Python programs cannot send a value other than the one they gave: `encode` and `Client.call` accept objects exactly when each of them stands for one value in the range of its parameter (an integer, a truth value, a sequence of the right length), send this value, and otherwise raise an exception before anything is sent. A Python function used as a callback, even one installed by `replace` in the middle of a request, is called once on objects for the arguments, and the caller gets the object it returned. `put`, `read_from` and `decode` accept integers from 0 to 255 only, and an object which is none of these leaves the bytes received before in place. A function which returns an object that does not stand for a value of the return type makes `put` throw, after which the dispatcher is stuck (C51).", "quantifier": "every key whose types are integers of at most 8 bytes, bool and arrays of them; all lists of Python objects; all Python functions, with any effect; both sizes of long; values in the domain of the format (C11)", "why_tests_cant": "The claim ranges over all Python objects, integers of any size included, and all Python functions.", "anchors": ["include/upd/python.hpp:define_pykey", "include/upd/python.hpp:declare_dispatcher", "py/unpadded/client.py:Client.call"]}
{"id": "C92", "title": "Sending with write_to while a handler receives", "statement": "On a double buffered dispatcher, `write_to` may be interrupted, between any of its accesses to the dispatcher and any number of times, by a handler which puts bytes, provided that a request is completed only when `is_loaded()` is false: the bytes given to the putter are those of the current response and of the responses of the requests completed meanwhile, in order; no byte is lost, repeated or altered.", "quantifier": "every valid platform, keyring, definitions which return, reachable state, putter which returns, order of evaluation left to the compiler, and schedule of the steps of `write_to` and of the bytes received", "why_tests_cant": "The outcome depends on the instruction at which the interrupt arrives and on the order of evaluation chosen by the compiler; a test exercises a few of the schedules, with one compiler.", "anchors": ["include/upd/buffered_dispatcher.hpp:write_to", "include/upd/buffered_dispatcher.hpp:get", "include/upd/buffered_dispatcher.hpp:is_loaded", "include/upd/buffered_dispatcher.hpp:put", "include/upd/buffered_dispatcher.hpp:call"]}
{"id": "C93", "title": "A response may be sent by a handler while it is being output", "statement": "On a double buffered dispatcher, an interrupt handler which sends the next byte of the output, if any (`if (d.is_loaded()) tx(d.get());`), may run at any points of a `put`, any number of times: the effect is the same as if it had run some number of times just before this `put` and some number of times just after; in particular the bytes of the response are sent in order, none before it has been output, none twice.", "quantifier": "every valid platform, keyring, definitions, reachable state, transmitter which returns, order of the two side effects of `obuf_begin()[m_obuf_bottom++] = byte`, number of runs of the handler at each point, and sequence of such puts", "why_tests_cant": "The outcome depends on the instructions at which the interrupts arrive, on how many of them arrive, and on the order of evaluation chosen by the compiler.", "anchors": ["include/upd/buffered_dispatcher.hpp:put", "include/upd/buffered_dispatcher.hpp:call", "include/upd/buffered_dispatcher.hpp:get", "include/upd/buffered_dispatcher.hpp:is_loaded"]}
{"id": "C94", "title": "A header compiled for different targets", "statement": "Two programs compiled for any two targets from the same header, which declares the functions and the keyring and only names types with the same size and sign everywhere (`bool`, the types of `<cstdint>`, as the documentation demands), understand each other: calls made by one and served by the other have the outcome of local calls. These are exactly the types with which it works whatever the targets. With other types, as soon as two sizes differ, the callee either still waits when the request has been sent, or takes the end of the request as the beginning of another; if only the sign differs, the values which survive are those of both types, none in offset binary.", "quantifier": "every two valid targets (sizes of `int`, `short`, `long`, `wchar_t`, `std::size_t`, signs of `char` and `wchar_t`, byte orders, macros), header, definitions, storage, reachable state and sequence of calls", "why_tests_cant": "The tests are compiled for one target; the sizes and signs of the types of a header depend on the compiler, and a mismatch makes bytes of a request be taken as parts of another.", "anchors": ["include/upd/keyring.hpp:keyring", "include/upd/key.hpp:key::payload_length", "include/upd/detail/serialization.hpp:write_as", "include/upd/buffered_dispatcher.hpp:put"]}
{"id": "C95", "title": "Requests altered on the way", "statement": "If bytes of requests are altered on the way to a buffered dispatcher, none being lost or added, and what arrives instead of each request is a request of the same length which can be read (in particular if only bytes of unsigned arguments are altered), the damage is confined to the altered requests: every byte has the status which it would have had, each function is called once, in order, on the values which the received bytes stand for, requests which have not been altered get their own arguments, and the dispatcher is then at the beginning of a request. Exactly when the bytes of the index designate a function whose parameters take as many bytes is the end of the request found where it is.", "quantifier": "every supported keyring, definitions, storage, platform, reachable state between two requests, sequence of requests and received bytes", "why_tests_cant": "The tests put well-formed requests; the values which noise can give to the bytes of a stream, and what the dispatcher makes of the requests which follow, are not enumerable.", "anchors": ["include/upd/buffered_dispatcher.hpp:put", "include/upd/dispatcher.hpp:operator()", "include/upd/action.hpp:action_model_impl"]}
{"id": "C96", "title": "Devices in a row behave as the last one", "statement": "A device can serve functions which call, through the keys of the same keyring, the functions of another device, and so on. Whatever the number of devices in the row, their platforms and their dispatchers (buffered or not, one or two buffers, any storage), a sequence of blocking calls made by the first caller has the outcome of the same calls made locally where the last device is: same results, same effects in the same order, and no call returns if the function does not. No byte is left on any link, and every dispatcher is ready for the next request.", "quantifier": "every supported keyring, row of devices of any length and platforms, state in which the devices are between two requests, definitions, and sequence of calls whose arguments are in the domain of all the platforms", "why_tests_cant": "The tests run one process on one platform, and a test cannot enumerate the rows of devices nor the states which their dispatchers reach.", "anchors": ["include/upd/key.hpp:operator()", "include/upd/key.hpp:read_from", "include/upd/buffered_dispatcher.hpp:put", "include/upd/dispatcher.hpp:operator()"]}
{"id": "C97", "title": "Programs with tuples, views and structured bindings have the meaning of programs on lists of values", "statement": "A program makes, copies, assigns, modifies and destroys tuples, makes views of them, reads and writes elements through the tuples and the views, binds names to the elements of tuples and views (structured bindings) and assigns these names. It reads the values which it would read if a tuple was a list of values, a view a part of the list of its tuple, and a name a copy of an element. Hence views see what is written to their tuple and the other way around, copies are independent, and the names of a structured binding keep their values whatever happens to the tuple, even if they are declared with auto &&. The program has undefined behaviour exactly if it uses a tuple which has been destroyed, possibly through a view: views do not extend the lifetime of tuples.", "quantifier": "every supported platform, and every program of such statements whose types are supported and whose values can be held by the elements they are written to", "why_tests_cant": "The tests check single statements on fixed tuples; interleavings of views, copies, bindings and lifetimes are without number, and uses of destroyed tuples go unnoticed in tests.", "anchors": ["include/upd/tuple.hpp:tuple", "include/upd/tuple.hpp:view", "include/upd/tuple.hpp:get", "include/upd/tuple.hpp:set", "include/upd/tuple.hpp:make_view", "include/upd/tuple.hpp:std::tuple_element"]}
{"id": "C98", "title": "Several dispatchers and copies of dispatchers are independent", "statement": "A program makes buffered dispatchers from any keyrings, copies some of them, possibly in the middle of a packet, puts bytes into them, gets bytes from them, replaces their functions, in any order, and catches the exceptions. If the functions of a dispatcher use a part of the state of the program which the functions of the other ones do not change (none at all, if the results depend on the arguments only), each dispatcher answers to every operation what it would answer if it was alone in the program: same values, same exceptions, same undefined behaviour if any. The life of a copy begins with the life of the dispatcher it is a copy of. A dispatcher can be copied exactly if its policy is weak_reference, whatever has been done with it.", "quantifier": "every platform, keyrings, policies, number of dispatchers, definitions which do not communicate, and program of such operations", "why_tests_cant": "The tests use one dispatcher at a time; the interleavings of several of them and the moments at which a copy can be made are without number.", "anchors": ["include/upd/buffered_dispatcher.hpp:put", "include/upd/buffered_dispatcher.hpp:get", "include/upd/buffered_dispatcher.hpp:replace", "include/upd/action.hpp:no_storage_action", "include/upd/dispatcher.hpp:actions"]}
{"id": "C99", "title": "A program which calls the functions of several devices behaves as if it called them itself", "statement": "A program calls in blocking mode functions of any number of devices, each of which has its own platform, keyring (endianess, signed mode, functions), policy and buffering, and does other things between the calls; the calls which it makes and the arguments depend on the previous results. The devices may share a part of the world which their functions act on. If the arguments are in the domain of both platforms along the executions of the program, the outcome is the one of the same program which calls the functions itself: same result, same effects, same exception, same undefined behaviour. The devices have been used in any way before; after the program, no byte is left on any link and all the devices are ready for a request.", "quantifier": "every platforms, keyrings, policies, functions, number of devices, histories of the devices, and adaptive program", "why_tests_cant": "The tests make one call to one device of the same platform; a program has unboundedly many calls whose arguments depend on results, and the devices of other platforms are not there.", "anchors": ["include/upd/key.hpp:write_to", "include/upd/key.hpp:read_from", "include/upd/keyring.hpp:get", "include/upd/buffered_dispatcher.hpp:operator()", "include/upd/dispatcher.hpp:operator()"]}
{"id": "C100", "title": "Callbacks of an unbuffered dispatcher may run the dispatcher: calls nest, results come in the order of completion", "statement": "A callback of an unbuffered dispatcher may call the dispatcher itself, on the same streams, any number of times and to any depth, with or without catching exceptions (for example in order to process several requests as a whole). If the input consists of the requests of any sequence of calls, the outcome is the one of the same nested program which makes the calls directly: each run of the dispatcher consumes exactly the next request, the effects take place in the same order, and the output consists of the responses in the order of completion (the responses of the nested calls precede the one of the callback). A call which throws sends nothing, and the requests which follow are unaffected. A caller on another platform, which writes the requests with the keys and reads the responses in this order, gets the results.", "quantifier": "every platforms, keyring, policy, bodies of callbacks and main program (trees of effects and dispatches), sequence of requests, and depth", "why_tests_cant": "No test runs a dispatcher from a callback; the nesting and the number of requests are unbounded and depend on what was received.", "anchors": ["include/upd/dispatcher.hpp:operator()", "include/upd/action.hpp:operator()", "include/upd/key.hpp:write_to", "include/upd/key.hpp:read_from"]}
{"id": "C101", "title": "Buffered and unbuffered dispatchers are interchangeable in programs which process whole packets", "statement": "A program which lets its dispatcher process packets as a whole (`dispatcher(src, dest)`), looks whether the index was valid, does other things and replaces callbacks, has the same result, the same effects on its streams and the rest of the world, the same exceptions and the same undefined behaviours with a `dispatcher`, a `single_buffered_dispatcher` and a `double_buffered_dispatcher`, whatever kind of actions each has, provided that the buffered dispatcher starts between two packets and that the responses fit in its output buffer. The condition on whole packets matters: a program which catches an exception of its source and goes on has a different outcome with each kind.", "quantifier": "for all keyrings, platforms, kinds of actions, byte streams (also throwing), bytes (valid or not), callbacks (also throwing), replacements, reachable states of the buffered dispatcher and programs", "why_tests_cant": "The tests run each kind of dispatcher on its own on single packets; the claim compares the kinds over all programs and all streams, including invalid and truncated packets.", "anchors": ["include/upd/dispatcher.hpp:operator()", "include/upd/dispatcher.hpp:replace", "include/upd/buffered_dispatcher.hpp:operator()", "include/upd/buffered_dispatcher.hpp:replace"]}
{"id": "C102", "title": "Actions own their callbacks: no leak, no double deletion, no use after deletion, strong exception safety, and no dynamic memory with weak_reference", "statement": "A program makes, moves, move-assigns, replaces, calls and destroys actions and dispatchers, in any order, and catches the exceptions, including those of failed allocations and of the constructors of callback objects. It does what it would do if actions were values: no callback object is used after its deletion or deleted twice; each one is destroyed exactly when it is replaced or when the action which holds it is destroyed (the elements of a dispatcher in reverse order). At any time there are as many objects on the heap as actions holding a callback; none is left when all the actions have been destroyed. If a step throws, every action holds the same callback as before. Programs which only use weak_reference do not use the heap: their outcome does not depend on it.", "quantifier": "every program of such steps, classes of callback objects (construction and destruction with arbitrary effects, throwing constructors), and sequence of outcomes of the allocations", "why_tests_cant": "No test observes the lifetime of callback objects or a failed allocation; the claim concerns all sequences of moves and replacements, and a failure at any allocation.", "anchors": ["include/upd/action.hpp:action", "include/upd/action.hpp:action_model", "include/upd/action.hpp:no_storage_action", "include/upd/dispatcher.hpp:actions", "include/upd/dispatcher.hpp:replace"]}
{"id": "C103", "title": "The buffers of the provided buffered dispatchers are as small as possible", "statement": "The sizes of the buffers of single and double buffered dispatchers are as small as possible for holding any action request and any action response: with these sizes, no sequence of put, get and is_loaded accesses a buffer out of its bounds, whatever the functions do, and with any smaller size some sequence does.", "quantifier": "every keyring, all sizes and initial contents of the buffers, all functions, every sequence of put, get and is_loaded", "why_tests_cant": "Both halves quantify over all sequences of bytes and all functions, and minimality over all smaller sizes.", "anchors": ["include/upd/buffered_dispatcher.hpp:needed_input_buffer_size", "include/upd/buffered_dispatcher.hpp:needed_output_buffer_size", "include/upd/buffered_dispatcher.hpp:buffer_size", "include/upd/buffered_dispatcher.hpp:input_buffer_size", "include/upd/buffered_dispatcher.hpp:output_buffer_size"]}
{"id": "C104", "title": "A tuple or view invoked on a key makes the request for the values it holds", "statement": "t.invoke(key), where the types of the tuple or view t are those of the parameters of the key, makes the request for the values t holds, in the format of the key, whatever the format of t. If t has the format of the key (key::tuple_t), the bytes of t are written after the index with negative zeros replaced by zeros and bools by 0 or 1, hence as they are if there is neither. A callee does the same on the forwarded request as on the original bytes; forwarding again changes nothing. If an element cannot be decoded, nothing is written.", "quantifier": "all platforms, formats of the tuple and of the key, parameter types, bytes of the tuple, positions of the view, destinations, callees and functions", "why_tests_cant": "test/key.cpp has one invocation with one set of values in one format; the claim is over all byte contents, including encodings which the library itself never writes, and all pairs of formats.", "anchors": ["include/upd/tuple.hpp:invoke", "include/upd/key.hpp:operator()", "include/upd/key.hpp:tuple_t", "include/upd/detail/serialized_message.hpp:write_to"]}
{"id": "C105", "title": "The peer of a callee learns what the functions return and nothing else", "statement": "Two callees whose functions behave alike from related states (same results, exceptions and faults, related states afterwards) cannot be told apart through a dispatcher, buffered or not, whatever bytes are sent and whatever the order of the calls of put, get, is_loaded, read_from, write_to, operator() and reply. Hence a part of the state on which no result depends cannot be learnt by a peer, not even from stale or uninitialised bytes of the buffers. If the functions do not throw and the responses fit, two callees cannot be told apart by any peer exactly when all sequences of direct calls of their functions have the same results.", "quantifier": "all platforms, keyrings, features, kinds of states and relations between them, definitions of the functions, adaptive programs holding the dispatcher, byte sequences, sizes and both kinds of buffering", "why_tests_cant": "It compares two executions for all adaptive peers and all secrets (a hyperproperty); a test runs one peer against one callee.", "anchors": ["include/upd/dispatcher.hpp:operator()", "include/upd/buffered_dispatcher.hpp:put", "include/upd/buffered_dispatcher.hpp:get", "include/upd/buffered_dispatcher.hpp:read_from", "include/upd/buffered_dispatcher.hpp:write_to", "include/upd/buffered_dispatcher.hpp:reply"]}
{"id": "C106", "title": "Requests are as short as any protocol could make them", "statement": "README: \"Minimizes the quantity of data sent\". Whatever self-delimiting protocol carries the requests of a keyring, some of its requests are at least as long as any request that the library writes: no other encoding, even of variable length, has a better worst case. Likewise, no encoding of the values of a tuple has a better worst case than the tuple, even if the end of the encoding is known by other means; and the same holds for the responses.", "quantifier": "all platforms, keyrings, callbacks, arguments and all other encodings (arbitrary prefix-free functions from requests to byte sequences, or injective ones for tuples)", "why_tests_cant": "It compares the packets to every possible encoding; tests only know the packets.", "anchors": ["include/upd/key.hpp:operator()", "include/upd/keyring.hpp:index_t", "include/upd/tuple.hpp:tuple", "include/upd/detail/type_traits/smallest.hpp:smallest_unsigned"]}
{"id": "C107", "title": "Calls over a line which alters bytes are calls with altered arguments and results", "statement": "A program calls functions of another device over a line which alters bytes, but keeps their number and does not turn a request into one of another size. The types can be decoded from any bytes. Then the program behaves exactly as if each call were made without library on what the bytes which arrive stand for: the function of the received index, on the received arguments, with the received result. Bytes altered within one argument alter that argument only; a call of which nothing is altered is a direct call; a call of which only the beginning of the request arrives calls no function and waits. No alteration causes undefined behaviour in the library or puts the dispatcher out of step.", "quantifier": "all platforms, keyrings, functions (with any effects, exceptions and faults), lines (with any dependence on the history), adaptive programs, buffered (single or double) and unbuffered dispatchers", "why_tests_cant": "Tests send well-formed requests; there are unboundedly many alterations, and their effect compounds along a program which depends on the results.", "anchors": ["include/upd/key.hpp:operator()", "include/upd/key.hpp:read_from", "include/upd/dispatcher.hpp:operator()", "include/upd/buffered_dispatcher.hpp:put", "include/upd/serialization.hpp:read_as"]}
{"id": "C108", "title": "Messages can be kept, modified, moved and sent again", "statement": "The object that key(args...) returns can be kept in a variable. A program which keeps messages, reads and modifies their elements (the index and the arguments), moves them and sends them any number of times behaves as if a message were the index of a function and a list of arguments: each write_to outputs the request for the values held at that time, sending changes nothing, and a message which has been moved keeps its values. A destination may even modify the message which is being sent: as long as it leaves alone the bytes still to be sent, what is sent is the message as it was when write_to was called.", "quantifier": "all platforms, keys, encodable values, destinations (with any effects and exceptions), programs whose actions depend on what they read", "why_tests_cant": "The tests send each message once, at once; there are unboundedly many programs.", "anchors": ["include/upd/detail/serialized_message.hpp:write_to", "include/upd/detail/serialized_message.hpp:serialized_message", "include/upd/key.hpp:operator()", "include/upd/tuple.hpp:set", "include/upd/tuple.hpp:get"]}
{"id": "C109", "title": "Calls repeated until there is a response, over a line which loses and delays messages", "statement": "A caller in blocking mode gives read_from a byte getter which throws when no byte arrives in time, and then sends its request again. If the line may lose whole requests and responses or deliver responses too late, and the caller discards what has arrived before it sends a request, a program behaves as if, without library, each function was executed once for each request which arrived, the result being the one of the last execution; the devices are never out of step. With idempotent functions which return something, the program has the result and the effect of direct calls. Functions which return nothing give no way to know that the request was lost; and if what has arrived too late is not discarded, it is taken for the response of the next call.", "quantifier": "all pairs of platforms, keyrings, functions, programs whose calls depend on the results, sequences of losses and delays, both kinds of dispatchers", "why_tests_cant": "The tests have no byte source which throws, and no losses; there are unboundedly many programs and sequences of losses.", "anchors": ["include/upd/key.hpp:read_from", "include/upd/key.hpp:operator()", "include/upd/dispatcher.hpp:operator()", "include/upd/buffered_dispatcher.hpp:operator()"]}
{"id": "C110", "title": "Layers of devices behave as layers of functions", "statement": "In a row of devices, each serves its own keyring, in its own format, and the bodies of its functions are programs which call functions of the next device, through keys of the next keyring, any number of times and depending on results. A program which calls functions of the first device has the outcome of the same program where all these functions are ordinary functions which call each other: same result, same effects, same exception, same undefined behaviour. If it ends, no byte is left on any link and all dispatchers are ready for another request. In particular, a gateway, whose functions call those of the next device, translates between any two formats.", "quantifier": "all numbers of devices, platforms, kinds of dispatchers, keyrings, formats, function bodies and programs (correct with respect to types), dispatchers used in any way before", "why_tests_cant": "The tests have one caller and one callee, with one keyring; there are unboundedly many rows of devices and programs.", "anchors": ["include/upd/key.hpp:operator()", "include/upd/key.hpp:read_from", "include/upd/dispatcher.hpp:operator()", "include/upd/buffered_dispatcher.hpp:operator()"]}
{"id": "C111", "title": "Coroutines which call a device at the same time get their own results, and calls are atomic", "statement": "Several coroutines use the Python client to call functions of a device through the same connection: call encodes the request, awaits the future returned by new_request, and decodes the response. If new_request sends the payload and the transport resolves the futures with the responses in order, then, however the coroutines, the device and the transport are scheduled, and whichever coroutines are cancelled at whatever time, each other coroutine gets the results of its own calls, functions are executed once per call in the order of the requests, and the results and effects are those of the same programs taking turns and calling the functions directly, each call being executed at once. The call of a coroutine which is cancelled after the request is sent is executed, once, and its result is thrown away. As long as a coroutine has neither finished nor been cancelled, something can be done. A coroutine alone has the result and the effects of direct calls, whatever the delays.", "quantifier": "all pairs of platforms, keyrings, functions, numbers of coroutines, programs whose calls depend on the results, schedules, both kinds of dispatchers, buffered dispatchers used in any way before", "why_tests_cant": "The tests have one coroutine and futures which are resolved at once; there are unboundedly many programs and schedules.", "anchors": ["py/unpadded/client.py:call", "include/upd/python.hpp:encode", "include/upd/python.hpp:decode", "include/upd/dispatcher.hpp:operator()", "include/upd/buffered_dispatcher.hpp:operator()"]}
{"id": "C112", "title": "Networks of devices behave as functions which call each other", "statement": "In a network, each device serves its own keyring, in its own format, and the bodies of its functions are programs which call functions of other devices. A device may call several devices, and a device may be called by several ones, of different platforms, as long as no device is called, directly or not, by itself. A program which calls functions of these devices has the outcome of the same program where all these functions are ordinary functions which call each other: same result, same effects, same exception, same undefined behaviour. If it ends, no byte is left on any link and all dispatchers are ready for another request. Changing the platforms, the kinds of dispatchers and the formats of the devices changes none of the results and effects.", "quantifier": "all acyclic networks (any number of devices), platforms, kinds of dispatchers, keyrings, formats, function bodies and programs (correct with respect to types), dispatchers used in any way before", "why_tests_cant": "The tests have one caller and one callee, with one keyring; there are unboundedly many networks and programs.", "anchors": ["include/upd/key.hpp:operator()", "include/upd/key.hpp:read_from", "include/upd/dispatcher.hpp:operator()", "include/upd/buffered_dispatcher.hpp:operator()"]}
{"id": "C113", "title": "Bytes are got, then one function is called, then bytes are given", "statement": "Whatever the source, the destination and the functions do, including throwing at any call, a dispatcher which serves a packet first gets the bytes of the packet which have not been received, and no other, then calls one function once, then gives as many bytes as its result takes, and none more. If the index is unknown, it only gets the bytes of the index. If there is an exception, what has been attempted is the beginning of this, and nothing is attempted after the exception. put gets and gives no byte, and calls a function if and only if it returns RESOLVED_PACKET or throws. read_from gives no byte; write_to gives the unread bytes only and calls no function. Sending a request gives the bytes of the index and of the arguments only; receiving a response gets the bytes of the result only.", "quantifier": "all platforms, formats, keyrings, functions, sources and destinations (which may throw at any call), all reachable states of buffered dispatchers, any number of bytes already received; where there is no undefined behaviour", "why_tests_cant": "The tests use sources and destinations which never fail, and look at what has been transferred, not at the order of the calls; there are unboundedly many sources, destinations and functions.", "anchors": ["include/upd/dispatcher.hpp:operator()", "include/upd/action.hpp:operator()", "include/upd/buffered_dispatcher.hpp:read_from", "include/upd/buffered_dispatcher.hpp:put", "include/upd/buffered_dispatcher.hpp:write_to", "include/upd/buffered_dispatcher.hpp:operator()", "include/upd/key.hpp:operator()", "include/upd/key.hpp:read_from"]}
{"id": "C114", "title": "Iterators of any class", "statement": "Dispatchers, actions and clients may be given iterators of any class in place of functors. If *it++ gives the bytes of a request, the function is called on its arguments, then the bytes of the response are stored by *it++ = byte, in order, and nothing else is read or stored. Sending a request stores its bytes; reading a response returns its value. If the iterators refer to streams (std::istreambuf_iterator, std::back_insert_iterator), calls on iterators have the outcome of calls on functors which read and write these streams, whatever the bytes are, and successive calls serve successive requests even if the same iterator is passed each time.", "quantifier": "all platforms, formats, keyrings and functions; all classes of iterators, whose operations may have effects, throw, and be undefined past some end; any number of calls", "why_tests_cant": "The tests use a few classes of iterators on a few requests; users have classes of their own.", "anchors": ["include/upd/detail/io/immediate_process.hpp:operator()", "include/upd/detail/io/immediate_process.hpp:reader_iterator", "include/upd/detail/io/immediate_process.hpp:writer_iterator", "include/upd/detail/io/immediate_reader.hpp:read_from", "include/upd/detail/io/immediate_writer.hpp:write_to", "include/upd/detail/type_traits/require.hpp:require_input_byte_iterator"]}
{"id": "C115", "title": "Floating-point numbers in arrays, classes, tuples, requests and responses", "statement": "When the signed mode of the format is the one the macro declares for the hosts, float and double can be used wherever integers can, at any depth: in arrays, classes with an extension, tuples, parameters and return types. Their bytes are those of the object representation in the byte order of the format. What another host reads has the same bits, NaN payloads, infinities, negative zero and denormal numbers included; setting an element of a tuple changes no other; a remote call returns what the function returns on the very objects given.", "quantifier": "all valid platforms with the macro, of both byte orders; all byte orders of the format; all types without padding inside arrays; all values; all functions, which may throw", "why_tests_cant": "The tests have no floating-point value in a composite type, and there are 2^64 bit patterns for a double alone.", "anchors": ["include/upd/detail/serialization.hpp:read_as", "include/upd/detail/serialization.hpp:write_as", "include/upd/detail/signed_representation.hpp:to_signed_mode", "include/upd/detail/signed_representation.hpp:from_signed_mode", "include/upd/tuple.hpp:get", "include/upd/tuple.hpp:set", "include/upd/action.hpp:call", "include/upd/key.hpp:read_from", "include/upd/dispatcher.hpp:operator()"]}
{"id": "C116", "title": "Buffers anywhere in one array", "statement": "A class which derives from buffered_dispatcher may place its input and its output buffers anywhere in one array. If they have no byte in common, the dispatcher does what the specification says for any calls; if they overlap, in whichever way, it does so as long as put is only called when is_loaded() is false. The other bytes of the array are left unchanged. A byte put earlier, in the middle of a packet, takes the place of the byte of the response which is at the same place. A program which processes packets as a whole, with operator(), needs no precaution: it cannot tell such a dispatcher from an unbuffered one.", "quantifier": "all keyrings and functions (which may throw); all arrays, positions and sizes of the two buffers which are large enough for the requests and the responses; all sequences of calls of put, get, is_loaded and replace; all programs which use operator() and replace, with any byte streams", "why_tests_cant": "The tests only use separate buffers; here every way of overlapping is covered, for every keyring and sequence of calls.", "anchors": ["include/upd/buffered_dispatcher.hpp:put", "include/upd/buffered_dispatcher.hpp:get", "include/upd/buffered_dispatcher.hpp:is_loaded", "include/upd/buffered_dispatcher.hpp:ibuf_begin", "include/upd/buffered_dispatcher.hpp:obuf_begin", "doc/callee.rst.in"]}
{"id": "C117", "title": "Several dispatchers on one array", "statement": "Several classes which derive from buffered_dispatcher may have all their buffers in one array, with any overlap between the buffers of one dispatcher or of different dispatchers, and the program may use the array for something else between the packets. As long as the packets are processed one at a time with operator(), each by any of the dispatchers, the program has the same results, effects and exceptions as with unbuffered dispatchers which need no array. Each dispatcher only needs room for its own requests and responses, and the dispatchers leave the bytes which are in none of the buffers unchanged. A packet processed by another dispatcher in the middle of a request changes the arguments.", "quantifier": "all numbers of dispatchers; all keyrings and functions (which may throw) of each; all arrays, positions and sizes of the buffers which are large enough; all programs which process packets, replace callbacks, store bytes in the array and act on the rest of the world, depending on what they observe; all byte streams", "why_tests_cant": "The tests have one dispatcher at a time, with its own buffers; that no dispatcher keeps anything in its buffers between two packets has to hold of every keyring, placement and order of packets.", "anchors": ["include/upd/buffered_dispatcher.hpp:operator()", "include/upd/buffered_dispatcher.hpp:read_from", "include/upd/buffered_dispatcher.hpp:write_to", "include/upd/buffered_dispatcher.hpp:ibuf_begin", "include/upd/buffered_dispatcher.hpp:obuf_begin", "doc/callee.rst.in"]}
