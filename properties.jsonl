{"id": "C01", "title": "BUFFER behaves as a byte string", "statement": "Every successful BUFFER call has exactly its documented effect on the bytes and length seen through BUFFER_u_char/BUFFER_content/BUFFER_length/BUFFER_size: create/build make the contents equal to the source bytes, append/prepend concatenate the second buffer after/before the first and leave the second unchanged, clone yields an equal buffer, enlarge keeps the old bytes as a prefix, unbuild and build-with-size-0 empty it.", "quantifier": "all byte strings, all sizes, all buffers, all allocation outcomes", "why_tests_cant": "contents and sizes are unbounded and each combination of arguments and prior state would need its own test", "anchors": ["src/buffer.c: BUFFER_create, BUFFER_build, BUFFER_pre_build, BUFFER_enlarge, BUFFER_append, BUFFER_prepend, BUFFER_unbuild, BUFFER_clone, BUFFER_content, BUFFER_size, BUFFER_u_char, BUFFER_length"]}
{"id": "C02", "title": "BUFFER calls are all-or-nothing", "statement": "A BUFFER call that returns nonzero (or NULL) leaves every buffer exactly as it was, and it only fails for a documented argument error or because the allocator refused a request.", "quantifier": "all arguments (including NULL and identical handles), all contents, every choice of failing allocation", "why_tests_cant": "requires every allocation-failure point in every state", "anchors": ["src/buffer.c: all BUFFER_* functions"]}
{"id": "C03", "title": "BUFFER memory discipline", "statement": "No BUFFER call reads or writes outside a live block, frees a block twice, or leaks: after any sequence of calls on a buffer followed by BUFFER_delete, exactly the memory allocated by that buffer has been returned, whatever allocations failed on the way.", "quantifier": "all call sequences, all sizes, every allocation-failure pattern and allocator address choice", "why_tests_cant": "leaks and double frees depend on histories and failure points", "anchors": ["src/buffer.c: BUFFER_new, BUFFER_create, BUFFER_delete and all mutators"]}
{"id": "C04", "title": "STRING behaves as a C string value", "statement": "Each successful STRING call gives the handle exactly the documented text: construct/clone/copy copy, construct_n/copy_n take the first n characters, concat/concat_with_STRING append, quote/new_quoted surround with double quotes, empty clears; c_str and length report it.", "quantifier": "all strings, all n, all allocation outcomes", "why_tests_cant": "unbounded strings and argument combinations", "anchors": ["src/strings.c: STRING_new, STRING_clone, STRING_construct, STRING_construct_n, STRING_new_with_memory, STRING_new_quoted, STRING_concat, STRING_concat_with_STRING, STRING_copy, STRING_copy_n, STRING_quote, STRING_empty, STRING_c_str, STRING_length"]}
{"id": "C05", "title": "STRING calls are all-or-nothing and memory safe", "statement": "A failing STRING call leaves the string unchanged and leaks nothing; a call never touches memory outside its blocks; constructor plus any calls plus STRING_delete returns all memory, for every allocation-failure pattern.", "quantifier": "all call sequences and allocation-failure patterns", "why_tests_cant": "requires every failure point in every history", "anchors": ["src/strings.c: all STRING_* functions"]}
{"id": "C06", "title": "STRING_new_JSON produces a JSON string literal that decodes to its input", "statement": "For every input made of characters 1..127, the produced text is a well-formed JSON string literal (RFC 8259 grammar) whose decoded value is the input; for any input containing a byte >= 128 NULL is returned; the computed allocation size is exactly the text written, so the buffer is never overrun.", "quantifier": "all C strings, all allocation outcomes", "why_tests_cant": "all strings over 127 characters; buffer-size arithmetic must be exact for each", "anchors": ["src/strings.c: STRING_new_JSON, hexToASCII"]}
{"id": "C07", "title": "STRING_compare is a total order consistent with content", "statement": "STRING_compare returns 0 iff both handles are NULL or both hold the same text, is antisymmetric in sign and transitive on non-NULL handles, orders by unsigned bytes, and orders NULL after every string (returns 1 if only the first is NULL and -1 if only the second is).", "quantifier": "all pairs and triples of strings and NULLs", "why_tests_cant": "relational property over all pairs/triples", "anchors": ["src/strings.c: STRING_compare"]}
{"id": "C08", "title": "MAP behaves as an insertion-ordered dictionary", "statement": "After any sequence of Map_Add/Map_AddOrUpdate/Map_Delete the map holds each key at most once; Map_Add on a present key returns MAP_KEYEXISTS and changes nothing, on an absent key appends; Map_AddOrUpdate overwrites in place or appends; Map_Delete removes that pair only and keeps the order of the rest; ContainsKey/ContainsValue/GetValueFromKey/GetInternals report exactly this dictionary.", "quantifier": "all histories of operations over all keys and values", "why_tests_cant": "depends on unbounded histories", "anchors": ["src/map.c: Map_Create, Map_Add, Map_AddOrUpdate, Map_Delete, Map_ContainsKey, Map_ContainsValue, Map_GetValueFromKey, Map_GetInternals, findKey, insertNewKeyValue"]}
{"id": "C09", "title": "MAP operations are failure-atomic and leak-free", "statement": "If a map call returns MAP_ERROR (or Map_Clone returns NULL) the map's pairs are unchanged, nothing is leaked and the map remains fully usable and destroyable, wherever the allocator failed (including a failing shrink); MAP_ERROR is returned only when an allocation failed.", "quantifier": "all map contents, all keys/values, every allocation-failure pattern", "why_tests_cant": "the failure point can be any of the allocations inside a call in any state", "anchors": ["src/map.c: Map_IncreaseStorageKeysValues, Map_DecreaseStorageKeysValues, insertNewKeyValue, Map_CloneVector, Map_Clone, Map_Destroy"]}
{"id": "C10", "title": "MAP filter guards every insertion", "statement": "A map created with a filter never comes to hold a pair its filter rejects: Map_Add/Map_AddOrUpdate of a rejected pair returns MAP_FILTER_REJECT (MAP_KEYEXISTS for Map_Add of an existing key) and changes nothing, at any point of the map's life, and a clone is guarded by the same filter.", "quantifier": "all filters, all histories", "why_tests_cant": "depends on the history (the filter can be dropped when the map becomes empty)", "anchors": ["src/map.c: Map_Add, Map_AddOrUpdate, Map_DecreaseStorageKeysValues, Map_Clone"]}
{"id": "C11", "title": "Map_Clone gives an equal, independent map", "statement": "A successful Map_Clone returns a map with the same pairs in the same order, sharing no memory with the source: later operations on one never affect the other.", "quantifier": "all maps, all later histories of both", "why_tests_cant": "independence ranges over all later operations", "anchors": ["src/map.c: Map_Clone, Map_CloneVector"]}
{"id": "C12", "title": "Map_ToJSON emits a JSON object with exactly the map's pairs", "statement": "If Map_ToJSON succeeds its text parses as one JSON object whose members are the map's pairs in order; it succeeds whenever all keys and values are 7-bit and allocations succeed, and leaks nothing on failure; an empty map gives {}.", "quantifier": "all maps, all allocation outcomes", "why_tests_cant": "unbounded maps and strings", "anchors": ["src/map.c: Map_ToJSON"]}
{"id": "C13", "title": "CONSTMAP is an immutable shared snapshot", "statement": "ConstMap_Create copies the source map; lookups on the const map always answer for that snapshot whatever later happens to the source; clones share it; memory is released exactly when the last reference is destroyed; ConstMap_CloneWriteable gives an independent equal map.", "quantifier": "all maps, all histories of clone/destroy and source mutation", "why_tests_cant": "histories and reference counts are unbounded", "anchors": ["src/constmap.c: ConstMap_Create, ConstMap_Clone, ConstMap_Destroy, ConstMap_CloneWriteable, ConstMap_GetValue, ConstMap_ContainsKey, ConstMap_ContainsValue, ConstMap_GetInternals"]}
{"id": "C14", "title": "CONSTBUFFER content is immutable and freed exactly once with the last reference", "statement": "CONSTBUFFER_GetContent returns the original bytes as long as any reference is alive; memory is freed exactly when the number of destroys equals 1 + number of clones; never earlier, never twice.", "quantifier": "all contents, all sequences of clone/destroy, all thread interleavings of the atomic count updates (fewer than 2^32 references)", "why_tests_cant": "schedules and histories are unbounded", "anchors": ["src/constbuffer.c: CONSTBUFFER_Create, CONSTBUFFER_CreateFromBuffer, CONSTBUFFER_Clone, CONSTBUFFER_GetContent, CONSTBUFFER_Destroy", "inc/azure_c_shared_utility/refcount.h: INC_REF, DEC_REF"]}
{"id": "C15", "title": "LIST is a sequence of stable item handles", "statement": "list_add appends at the tail and returns a handle to the new item; head/next traversal visits the items in insertion order and ends; list_remove of a contained handle removes just that item and returns 0, of any other handle returns nonzero and changes nothing; list_find returns the first item for which the match function answers true, or NULL; item values are those added.", "quantifier": "all lists, all histories, all match functions, all allocation outcomes", "why_tests_cant": "unbounded histories; termination of traversal", "anchors": ["src/list.c: list_create, list_destroy, list_add, list_remove, list_get_head_item, list_get_next_item, list_item_get_value, list_find"]}
{"id": "C16", "title": "LIST memory discipline", "statement": "No list call touches freed memory or leaks; list_destroy returns every node and the list itself, and does not touch the items.", "quantifier": "all histories and allocation-failure patterns", "why_tests_cant": "needs all histories", "anchors": ["src/list.c: list_destroy, list_remove, list_add"]}
{"id": "C17", "title": "Doubly linked list operations keep a well-formed ring and implement sequence operations", "statement": "On a well-formed list: InsertTail appends, InsertHead prepends, RemoveHead returns and removes the oldest entry (or the head itself when empty), RemoveEntry removes exactly that entry and returns nonzero iff the list becomes empty, AppendTail splices a headless ring at the end in order, IsListEmpty is nonzero iff there are no entries; forward and backward traversals stay exact reverses of each other; no other entry is touched.", "quantifier": "all list lengths and positions, all histories", "why_tests_cant": "pointer-structure invariant over all shapes", "anchors": ["src/doublylinkedlist.c: DList_InitializeListHead, DList_IsListEmpty, DList_InsertTailList, DList_InsertHeadList, DList_AppendTailList, DList_RemoveEntryList, DList_RemoveHeadList"]}
{"id": "C18", "title": "VECTOR behaves as a sequence of fixed-size elements", "statement": "VECTOR_push_back appends the given elements, VECTOR_erase of an in-range run removes exactly it, VECTOR_clear empties, VECTOR_size counts, VECTOR_element/front/back address the right element, VECTOR_find_if returns the first element satisfying the predicate.", "quantifier": "all element sizes, counts, contents and histories", "why_tests_cant": "unbounded histories and sizes", "anchors": ["src/vector.c: VECTOR_create, VECTOR_push_back, VECTOR_erase, VECTOR_clear, VECTOR_element, VECTOR_front, VECTOR_back, VECTOR_find_if, VECTOR_size, VECTOR_destroy"]}
{"id": "C19", "title": "VECTOR accessors never hand out a pointer outside the stored elements", "statement": "VECTOR_element returns NULL for every index that is not the index of a stored element, and VECTOR_front/VECTOR_back return NULL on an empty vector.", "quantifier": "all vectors and indices", "why_tests_cant": "boundary over all sizes", "anchors": ["src/vector.c: VECTOR_element, VECTOR_back, VECTOR_front"]}
{"id": "C20", "title": "Base64 encoding is RFC 4648 base64", "statement": "Base64_Encode and Base64_Encode_Bytes produce exactly the RFC 4648 base64 text (standard alphabet, = padding) of the input bytes, of length 4*ceil(n/3), and the allocated buffer is exactly filled; failure only on NULL input or allocation failure.", "quantifier": "all byte strings", "why_tests_cant": "unbounded inputs and three length classes", "anchors": ["src/base64.c: Base64_Encode, Base64_Encode_Bytes, Base64_Encode_Internal, base64char, base64b16, base64b8"]}
{"id": "C21", "title": "Base64 decoding inverts encoding", "statement": "Base64_Decoder applied to the text produced by Base64_Encode yields a buffer with exactly the original bytes.", "quantifier": "all byte strings", "why_tests_cant": "round trip over all inputs", "anchors": ["src/base64.c: Base64_Decoder, Base64decode, Base64decode_len, numberOfBase64Characters, base64toValue"]}
{"id": "C22", "title": "Base64_Decoder never writes outside its output buffer", "statement": "For every input string, the decoder writes only inside the buffer it allocated and every byte of the returned buffer has been written.", "quantifier": "all C strings, valid base64 or not", "why_tests_cant": "memory safety over arbitrary (malformed) inputs", "anchors": ["src/base64.c: Base64decode_len, Base64decode, Base64_Decoder"]}
{"id": "C23", "title": "URL_Encode percent-encodes reversibly and within bounds", "statement": "URL_Encode maps each byte independently: unreserved characters (letters, digits, ! ( ) * - . _) to themselves, every other 7-bit byte to % plus two lower-case hex digits, every byte b >= 128 to the percent-encoded two-byte UTF-8 form of code point b; the output contains only those characters, percent-decoding it gives back the (Latin-1 as UTF-8) input, encoding is injective, and the allocated buffer is exactly filled.", "quantifier": "all C strings", "why_tests_cant": "256-entry table lifted to all strings; buffer arithmetic", "anchors": ["src/urlencode.c: URL_Encode, URL_EncodeString, urlEncoding"]}
{"id": "C24", "title": "Tokenizer returns the maximal delimiter-free runs (one delimiter)", "statement": "With a one-character delimiter string, successive STRING_TOKENIZER_get_next_token calls return, in order, exactly the maximal non-empty runs of non-delimiter characters of the input, then fail forever; the output string is unchanged on failure.", "quantifier": "all inputs, all delimiters, all numbers of calls", "why_tests_cant": "history of calls over unbounded input", "anchors": ["src/string_tokenizer.c: STRING_TOKENIZER_create, STRING_TOKENIZER_create_from_char, STRING_TOKENIZER_get_next_token"]}
{"id": "C25", "title": "Tokenizer ends a token at the first delimiter of any kind", "statement": "With several delimiter characters a token ends at the first character contained in the delimiter set (SRS_STRING_04_008/010).", "quantifier": "all inputs and delimiter sets", "why_tests_cant": "relational over inputs and delimiter orders", "anchors": ["src/string_tokenizer.c: STRING_TOKENIZER_get_next_token"]}
{"id": "C26", "title": "Safe string functions never overrun the destination", "statement": "strcpy_s, strcat_s and strncpy_s write only within the first dstSizeInBytes bytes of dst, leave it NUL-terminated when they return 0 with exactly the documented contents, and return EINVAL/ERANGE/STRUNCATE in exactly the documented cases.", "quantifier": "all destination sizes and contents, all sources and counts", "why_tests_cant": "buffer-size boundaries over all sizes", "anchors": ["src/crt_abstractions.c: strcpy_s, strcat_s, strncpy_s, mallocAndStrcpy_s"]}
{"id": "C27", "title": "Integer-to-string conversion is exact and bounded", "statement": "unsignedIntToString and size_tToString return 0 iff the decimal representation plus NUL fits in the destination and then the destination holds exactly the canonical decimal representation; they never write outside the destination; in particular 21 bytes always suffice for a 64-bit value.", "quantifier": "all values, all destination sizes", "why_tests_cant": "2^64 values times all sizes", "anchors": ["src/crt_abstractions.c: unsignedIntToString, size_tToString"]}
{"id": "C28", "title": "HTTP headers store, combine and replace values as documented", "statement": "Adding a header under a new name stores it; adding under an existing name makes the value old + ', ' + new; replacing overwrites; leading white space (space, tab, CR, LF) of the value is dropped; names containing a character outside 33..126 or ':' are rejected with no change; FindHeaderValue and GetHeaderCount report this.", "quantifier": "all names, values and histories", "why_tests_cant": "unbounded histories and strings", "anchors": ["src/httpheaders.c: HTTPHeaders_AddHeaderNameValuePair, HTTPHeaders_ReplaceHeaderNameValuePair, HTTPHeaders_FindHeaderValue, HTTPHeaders_GetHeaderCount, headers_ReplaceHeaderNameValuePair"]}
{"id": "C29", "title": "HTTPHeaders_GetHeader yields 'name: value' for every index and only for valid indices", "statement": "For index < count the returned string is name + ': ' + value of that header in a block of exactly that size; for any other index HTTP_HEADERS_INVALID_ARG.", "quantifier": "all header sets and indices", "why_tests_cant": "unbounded", "anchors": ["src/httpheaders.c: HTTPHeaders_GetHeader, HTTPHeaders_Clone, HTTPHeaders_Alloc, HTTPHeaders_Free"]}
{"id": "C30", "title": "gballoc current usage equals the live tracked bytes", "statement": "Between gballoc_init and gballoc_deinit, gballoc_getCurrentMemoryUsed equals the sum of the sizes of all blocks obtained through gballoc and not yet freed, after any history of malloc/calloc/realloc/free (including frees of unknown pointers and failing allocations).", "quantifier": "all histories, all sizes, all allocation outcomes and addresses", "why_tests_cant": "unbounded histories", "anchors": ["src/gballoc.c: gballoc_malloc, gballoc_calloc, gballoc_realloc, gballoc_free, gballoc_getCurrentMemoryUsed, gballoc_init, gballoc_deinit"]}
{"id": "C31", "title": "gballoc maximum is the high-water mark", "statement": "gballoc_getMaximumMemoryUsed equals the maximum of the current usage over the history since gballoc_init, is monotone and never below the current usage.", "quantifier": "all histories", "why_tests_cant": "unbounded histories", "anchors": ["src/gballoc.c: gballoc_getMaximumMemoryUsed"]}
{"id": "C32", "title": "gballoc is thread-safe", "statement": "Calls made concurrently from several threads behave as if executed one after the other under the module lock; no thread follows a tracking record another thread has freed.", "quantifier": "all schedules of all threads", "why_tests_cant": "race conditions appear only in particular schedules", "anchors": ["src/gballoc.c: gballoc_free, gballoc_malloc"]}
{"id": "C33", "title": "SHA-1/224/256/384/512 equal the FIPS 180 functions", "statement": "Reset, any inputs, then Result gives exactly the FIPS 180-2 digest of the concatenated message, for every message shorter than the standard's limit.", "quantifier": "all messages (lengths up to the FIPS limit)", "why_tests_cant": "padding boundary cases times unbounded lengths", "anchors": ["src/sha1.c", "src/sha224.c", "src/sha384-512.c", "src/usha.c: USHAReset, USHAInput, USHAResult"]}
{"id": "C34", "title": "Hashing does not depend on how the message is split", "statement": "Feeding a message in any sequence of pieces (including empty ones) gives the same digest and return codes as feeding it at once.", "quantifier": "all messages, all splittings", "why_tests_cant": "all partitions of all messages", "anchors": ["src/sha1.c: SHA1Input", "src/sha224.c: SHA256Input", "src/sha384-512.c: SHA512Input"]}
{"id": "C35", "title": "Hash context misuse is reported", "statement": "Input after Result returns shaStateError and makes all later Input/Result calls fail until Reset; Result twice returns the same digest.", "quantifier": "all histories of Reset/Input/FinalBits/Result", "why_tests_cant": "unbounded histories", "anchors": ["src/sha224.c: SHA256Input, SHA256FinalBits, SHA224_256ResultN", "src/sha1.c", "src/sha384-512.c"]}
{"id": "C36", "title": "Concurrent hashing on distinct contexts is independent", "statement": "Two threads hashing on their own contexts obtain the same digests as if run alone.", "quantifier": "all schedules", "why_tests_cant": "only particular interleavings expose shared state", "anchors": ["src/sha224.c: addTemp, SHA224_256AddLength", "src/sha1.c: addTemp"]}
{"id": "C37", "title": "hmac equals RFC 2104 HMAC", "statement": "hmac(whichSha,text,key) returns 0 and H((K xor opad) || H((K xor ipad) || text)) with K the key zero-padded to the block size, or H(key) zero padded if longer; independently of how text is split over hmacInput calls.", "quantifier": "all keys, all texts, all five hashes", "why_tests_cant": "key length classes and unbounded texts", "anchors": ["src/hmac.c: hmac, hmacReset, hmacInput, hmacResult"]}
{"id": "C38", "title": "HMACSHA256_ComputeHash appends nothing but the MAC", "statement": "With an empty hash buffer, HMACSHA256_OK means the buffer holds exactly the 32-byte HMAC-SHA256 of the payload under the key; NULL or empty arguments give HMACSHA256_INVALID_ARG and leave the buffer unchanged; HMACSHA256_ERROR only if memory ran out.", "quantifier": "all keys and payloads", "why_tests_cant": "unbounded inputs", "anchors": ["src/hmacsha256.c: HMACSHA256_ComputeHash"]}
{"id": "C39", "title": "SAS token has the documented form and signature", "statement": "If SASToken_Create succeeds, the result is 'SharedAccessSignature sr=' scope '&sig=' urlencode(base64(HMAC-SHA256(base64decode(key), scope \\n expiry))) '&se=' expiry '&skn=' keyName, with expiry in decimal; any failure returns NULL with nothing leaked.", "quantifier": "all keys, scopes, key names, expiries, allocation outcomes", "why_tests_cant": "unbounded inputs and failure points", "anchors": ["src/sastoken.c: SASToken_Create"]}
{"id": "C40", "title": "HTTPAPIEX_ExecuteRequest always terminates with a bounded number of attempts", "statement": "Whatever HTTPAPI_Init, HTTPAPI_CreateConnection and HTTPAPI_ExecuteRequest return, a call makes at most 1 Init, 2 CreateConnection and 3 ExecuteRequest attempts and returns; on a handle without a connection it makes at most one of each.", "quantifier": "all outcome sequences of the transport, all starting states reachable by earlier calls", "why_tests_cant": "all infinite outcome sequences", "anchors": ["src/httpapiex.c: HTTPAPIEX_ExecuteRequest"]}
{"id": "C41", "title": "HTTPAPIEX keeps transport calls balanced", "statement": "Over any history from HTTPAPIEX_Create to HTTPAPIEX_Destroy, every successful HTTPAPI_Init is matched by exactly one HTTPAPI_Deinit and every created connection by exactly one HTTPAPI_CloseConnection; for each handle, requests are only executed on its live connection and no connection is created while another of its connections is open.", "quantifier": "all histories of ExecuteRequest/SetOption/Destroy and all transport outcomes", "why_tests_cant": "unbounded histories of outcomes", "anchors": ["src/httpapiex.c: HTTPAPIEX_ExecuteRequest, HTTPAPIEX_Destroy"]}
{"id": "C42", "title": "HTTPAPIEX result is truthful", "statement": "HTTPAPIEX_ExecuteRequest returns HTTPAPIEX_OK iff its last transport request succeeded, HTTPAPIEX_RECOVERYFAILED only after every step was exhausted, leaving the handle usable for a fresh start.", "quantifier": "all transport outcomes and histories", "why_tests_cant": "unbounded", "anchors": ["src/httpapiex.c: HTTPAPIEX_ExecuteRequest"]}
{"id": "C43", "title": "Saved options are applied to every new connection", "statement": "Each newly created connection receives, before any request, exactly the options successfully saved by HTTPAPIEX_SetOption, each once, with its most recent value, in first-set order.", "quantifier": "all histories of SetOption and ExecuteRequest", "why_tests_cant": "unbounded histories", "anchors": ["src/httpapiex.c: HTTPAPIEX_SetOption, createOrUpdateOption, HTTPAPIEX_ExecuteRequest"]}
{"id": "C44", "title": "HTTPAPIEX fills Host and Content-Length", "statement": "Every transport request carries Host = the configured host name and Content-Length = decimal size of the request content, other caller headers unchanged; NULL optional arguments are replaced by empty temporaries that are always released.", "quantifier": "all header sets, contents, NULL combinations and failure points", "why_tests_cant": "combinatorial and unbounded", "anchors": ["src/httpapiex.c: buildAllRequests, buildRequestHttpHeadersHandle, buildBufferIfNotExist, buildResponseHttpHeadersHandle"]}
{"id": "C45", "title": "HTTPAPIEX_SAS only ever refreshes an existing Authorization header", "statement": "HTTPAPIEX_SAS_ExecuteRequest always performs the request with the given arguments and returns its result; the request headers are changed only if an Authorization header was already present, and then only that header, to a token expiring one hour after the current time.", "quantifier": "all arguments and failure points", "why_tests_cant": "unbounded inputs and failure points", "anchors": ["src/httpapiexsas.c: HTTPAPIEX_SAS_ExecuteRequest, HTTPAPIEX_SAS_Create, HTTPAPIEX_SAS_Destroy"]}
{"id": "C46", "title": "xio forwards faithfully to the concrete IO", "statement": "Each xio call on a handle calls exactly the matching function of the interface given at creation, once, with the concrete handle and unchanged arguments, and reports success iff it did; NULL handles and incomplete interfaces are rejected with no call made.", "quantifier": "all interfaces, arguments and histories", "why_tests_cant": "unbounded histories over arbitrary interfaces", "anchors": ["src/xio.c: xio_create, xio_open, xio_close, xio_send, xio_dowork, xio_setoption, xio_destroy"]}
{"id": "C47", "title": "socketio delivers every accepted byte exactly once and in order", "statement": "The bytes handed to the socket are, at any time, a prefix of the concatenation of the buffers accepted by socketio_send, in order, whatever partial writes the socket performs.", "quantifier": "all histories of send/dowork, all partial-write outcomes", "why_tests_cant": "unbounded histories of socket outcomes", "anchors": ["adapters/socketio_berkeley.c: socketio_send, socketio_dowork, add_pending_io"]}
{"id": "C48", "title": "socketio completes each send at most once, in order", "statement": "on_send_complete is called at most once per accepted send, in the order of the sends, and only with IO_SEND_OK after all its bytes were handed to the socket; sends in a state other than open are refused with no effect.", "quantifier": "all histories", "why_tests_cant": "unbounded", "anchors": ["adapters/socketio_berkeley.c: socketio_send, socketio_dowork, socketio_close"]}
{"id": "C49", "title": "TLS IO state machine reports open and close faithfully", "statement": "For each open the user gets at most one IO_OPEN_OK and it is given only when the handshake has finished; application bytes are delivered only in the open state; sends are refused unless open.", "quantifier": "all sequences of underlying events", "why_tests_cant": "unbounded event sequences", "anchors": ["src/tlsio_openssl.c: on_underlying_io_open_complete, on_underlying_io_close_complete, on_underlying_io_error, on_underlying_io_bytes_received, send_handshake_bytes, tlsio_openssl_open, tlsio_openssl_close, tlsio_openssl_send"]}
{"id": "C50", "title": "Condition_Wait deadline is exact and normalised", "statement": "For every positive timeout the absolute deadline passed to the OS is a valid timespec (0 <= nsec < 1e9) exactly timeout milliseconds after the clock reading; result codes map one to one to the OS outcome; NULL arguments are rejected.", "quantifier": "all clock readings and timeouts", "why_tests_cant": "carry boundary over all values", "anchors": ["adapters/condition_pthreads.c: Condition_Wait, Condition_Post"]}
{"id": "C51", "title": "Thread creation/join ownership", "statement": "ThreadAPI_Create hands out a handle only on success and leaks nothing on failure; ThreadAPI_Join releases it exactly once and returns the thread function's result; ThreadAPI_Sleep requests a valid timespec equal to the given milliseconds.", "quantifier": "all OS outcomes, results and durations", "why_tests_cant": "failure points and value ranges", "anchors": ["adapters/threadapi_pthreads.c: ThreadAPI_Create, ThreadAPI_Join, ThreadAPI_Sleep"]}
{"id": "C52", "title": "Tick counter is elapsed seconds times 1000", "statement": "tickcounter_get_current_ms reports 1000 times the number of seconds since creation, is monotone while the clock is monotone, and fails exactly when the clock fails.", "quantifier": "all clock readings and histories", "why_tests_cant": "unbounded clock sequences", "anchors": ["adapters/tickcounter_linux.c: tickcounter_create, tickcounter_get_current_ms"]}
{"id": "C53", "title": "UniqueId_Generate writes a canonical 36-character UUID text", "statement": "For every random source output and every len >= 37 exactly 37 bytes are written: hex digits with dashes at positions 8, 13, 18, 23 and a terminating NUL; shorter buffers are rejected untouched; distinct generated 128-bit values give distinct texts.", "quantifier": "all random outputs and lengths", "why_tests_cant": "2^128 values", "anchors": ["adapters/uniqueid_stub.c: UniqueId_Generate, generate128BitUUID"]}
{"id": "C54", "title": "URL encoding leaks nothing", "statement": "URL_Encode and URL_EncodeString leave allocated exactly the returned string, whatever allocation requests are refused.", "quantifier": "all inputs and all patterns of refused allocations", "why_tests_cant": "every subset of allocation failures", "anchors": ["src/urlencode.c: URL_Encode, URL_EncodeString"]}
{"id": "C55", "title": "Generated identifiers are RFC 4122 version 4", "statement": "The text produced by UniqueId_Generate has the digit 4 as its version digit (position 14) and one of 8, 9, A, B as its variant digit (position 19), whatever the random source returns.", "quantifier": "all outputs of the random source", "why_tests_cant": "2^128 values; a test on random values only sees a sample", "anchors": ["adapters/uniqueid_stub.c: generate128BitUUID, UniqueId_Generate"]}
{"id": "C56", "title": "Condition_Init returns a usable condition variable or NULL", "statement": "A handle returned by Condition_Init denotes an initialised condition variable; if memory or the initialisation is refused, the result is NULL and nothing stays allocated.", "quantifier": "all outcomes of the allocator and the operating system", "why_tests_cant": "every refusal point", "anchors": ["adapters/condition_pthreads.c: Condition_Init"]}
{"id": "C57", "title": "socketio_close reports what it did", "statement": "socketio_close returns 0 exactly if the handle was open; then the socket is shut down and closed and the completion callback is called exactly once. Otherwise it returns a nonzero value, makes no system call and no callback.", "quantifier": "all histories of calls on any number of handles", "why_tests_cant": "every history and every outcome of the system calls", "anchors": ["adapters/socketio_berkeley.c: socketio_close, socketio_open, socketio_destroy"]}
{"id": "C58", "title": "socketio does not leak, reuse or double-close descriptors and address lists", "statement": "At any time a descriptor has been obtained from the system exactly as often as it was closed plus the number of handles holding it; after all handles are destroyed every descriptor obtained is closed. Each address list is freed exactly once, within the call that obtained it. No closed descriptor or freed list is used.", "quantifier": "all histories of calls on any number of handles, all failures of system calls and allocations", "why_tests_cant": "failure points of system calls and allocations in every history", "anchors": ["adapters/socketio_berkeley.c: socketio_create, socketio_open, socketio_close, socketio_destroy"]}
{"id": "C59", "title": "TLS IO passes exactly the right bytes between user, OpenSSL and the lower IO", "statement": "The lower IO is asked to send only bytes that OpenSSL has just put out for this very TLS IO, complete and in the order put out; OpenSSL is given to encrypt exactly the bytes of a send on an open TLS IO, and to decrypt exactly the bytes the lower IO delivered; the user receives exactly what OpenSSL decrypted, all of it, in order; a send reports success exactly if all that OpenSSL put out was accepted by the lower IO.", "quantifier": "all histories of calls, events and callbacks (including calls made from inside callbacks, to any depth), all answers of OpenSSL, the allocator and the lower IO, any number of TLS IOs", "why_tests_cant": "unbounded histories with re-entrant callbacks and every failure point", "anchors": ["src/tlsio_openssl.c: write_outgoing_bytes, send_handshake_bytes, decode_ssl_received_bytes, on_underlying_io_bytes_received, tlsio_openssl_send"]}
{"id": "C60", "title": "TLS IO does not leak or double-free its resources", "statement": "Every SSL context, SSL object, BIO, lower IO, buffer and certificate obtained is released exactly once: whenever no function is in progress, what is held is exactly what the TLS IOs alive own; after all are destroyed nothing is held.", "quantifier": "all histories of calls, events and callbacks on any number of TLS IOs, all failures of allocations and of OpenSSL", "why_tests_cant": "every failure point in every history", "anchors": ["src/tlsio_openssl.c: tlsio_openssl_create, tlsio_openssl_destroy, tlsio_openssl_setoption, add_certificate_to_store, write_outgoing_bytes"]}
{"id": "C61", "title": "TLS IO answers each open and close exactly once", "statement": "An open is refused while another is pending or the IO is open; an accepted open is answered exactly once, with success or failure; a close is refused when closed or closing, an accepted close is answered exactly once, when the lower IO has closed, and a refused close leaves the TLS IO usable; a TLS IO can be opened again after it was closed.", "quantifier": "all histories of calls, events and re-entrant callbacks, all answers of the environment", "why_tests_cant": "unbounded histories with re-entrant callbacks", "anchors": ["src/tlsio_openssl.c: tlsio_openssl_open, tlsio_openssl_close, on_underlying_io_open_complete, on_underlying_io_close_complete, on_underlying_io_error"]}
{"id": "C62", "title": "wolfSSL TLS IO: received bytes reach wolfSSL once, in order, without loss", "statement": "What wolfSSL fetches through the read callback is, at every moment, exactly a prefix of what the lower IO has delivered and the TLS IO had memory for; a fetch gets the oldest bytes not fetched yet, at most as many as asked for, and returns their number; when nothing is there an open TLS IO says 'want read'. Bytes for which there is no memory are not silently lost: the error callback is called. No byte outside the receive block is read or written.", "quantifier": "all histories of calls, events and callbacks (including re-entrant calls to any depth), all sizes of deliveries and fetches, all failures of realloc, any number of TLS IOs", "why_tests_cant": "unbounded histories with re-entrant callbacks, every split of the stream, every allocation failure", "anchors": ["src/tlsio_wolfssl.c: on_underlying_io_bytes_received, on_io_recv"]}
{"id": "C63", "title": "wolfSSL TLS IO passes exactly the right bytes out and to the user", "statement": "A send on a TLS IO that is not open is refused and nothing is written; an accepted send gives wolfSSL exactly the bytes passed, and succeeds exactly if wolfSSL took all of them; the lower IO is asked to send exactly what wolfSSL has just put out for this very TLS IO, all of it, with the completion callback of the last accepted send, and wolfSSL is told the truth about the result; the user receives exactly what wolfSSL decrypted, all of it, and reading goes on until wolfSSL has no more.", "quantifier": "all histories of calls, events and re-entrant callbacks, all answers of wolfSSL and the lower IO, any number of TLS IOs", "why_tests_cant": "unbounded histories with re-entrant callbacks and every failure point", "anchors": ["src/tlsio_wolfssl.c: tlsio_wolfssl_send, on_io_send, decode_ssl_received_bytes, tlsio_wolfssl_dowork"]}
{"id": "C64", "title": "wolfSSL TLS IO reports the outcome of open and close once and truthfully", "statement": "Success of an open is reported exactly once, only when the handshake over an open lower IO has finished, to the callback of the accepted open; failure of the lower IO or the handshake before that is reported as a failed open, failure after it through the error callback; an open is refused unless the TLS IO is closed; an accepted close is answered exactly once, when the lower IO has closed, and afterwards the TLS IO can be opened again.", "quantifier": "all histories of calls, events and re-entrant callbacks, all answers of wolfSSL and the lower IO", "why_tests_cant": "unbounded histories with re-entrant callbacks", "anchors": ["src/tlsio_wolfssl.c: tlsio_wolfssl_open, tlsio_wolfssl_close, on_handshake_done, on_underlying_io_open_complete, on_underlying_io_error, on_underlying_io_close_complete"]}
{"id": "C65", "title": "wolfSSL TLS IO does not leak, reuse or double-free its resources", "statement": "Every instance, receive block, context, SSL object and lower IO obtained is released exactly once: whenever no function is in progress, what is held is exactly what the TLS IOs alive own; after all are destroyed nothing is held. A created TLS IO has its callbacks and their context registered with wolfSSL.", "quantifier": "all histories of calls, events and callbacks on any number of TLS IOs, all failures of allocations and of wolfSSL", "why_tests_cant": "every failure point in every history", "anchors": ["src/tlsio_wolfssl.c: tlsio_wolfssl_create, tlsio_wolfssl_destroy, on_io_recv, on_underlying_io_bytes_received"]}
{"id": "C66", "title": "A request reaches libcurl exactly as the caller described it", "statement": "Each HTTPAPI_ExecuteRequest performs at most one transfer, exactly one if it returns HTTPAPI_OK; the transfer goes to https:// + the host the connection was created for + the relative path, uses the method asked for, carries every header of the request and exactly the content, and is subject to the options set last on this connection (or their defaults). No other call performs a transfer.", "quantifier": "all histories of calls on any number of connections, all strings, headers, contents and options, all answers of libcurl, all failing allocations", "why_tests_cant": "options and handles persist from request to request, so every history of earlier requests, option changes and failures matters", "anchors": ["adapters/httpapi_curl.c: HTTPAPI_ExecuteRequest, HTTPAPI_CreateConnection, HTTPAPI_SetOption"]}
{"id": "C67", "title": "A response is handed to the caller completely, and a failure is reported", "statement": "If HTTPAPI_ExecuteRequest returns HTTPAPI_OK, libcurl performed the request successfully, the status code is the one libcurl reported, the response buffer holds exactly the bytes of the response body in order of arrival, and every response header has been added to the caller's headers. Otherwise the result tells what failed and the buffer is as before; nothing is released twice.", "quantifier": "all sequences of header and body pieces of all sizes, all histories, all failing allocations", "why_tests_cant": "bodies are cut into pieces arbitrarily by the network; each piece and each allocation can fail", "anchors": ["adapters/httpapi_curl.c: HTTPAPI_ExecuteRequest, ContentWriteFunction, HeadersWriteFunction"]}
{"id": "C68", "title": "Connection options are accepted exactly if known, and copied faithfully", "statement": "HTTPAPI_SetOption returns HTTPAPI_OK exactly for an existing connection, a value and one of the six known names, and then this value is used by all later requests of this connection until set again; HTTPAPI_CloneOption returns HTTPAPI_OK exactly for the known names (and memory) and gives a copy that has the same value; everything else is refused without effect.", "quantifier": "all histories, all names and values", "why_tests_cant": "all names and histories", "anchors": ["adapters/httpapi_curl.c: HTTPAPI_SetOption, HTTPAPI_CloneOption"]}
{"id": "C69", "title": "libcurl is initialised once for all users and cleaned up after the last", "statement": "Over every history libcurl is initialised exactly when the number of successful HTTPAPI_Init calls not undone goes from 0 to 1 and cleaned up exactly when it goes from 1 to 0; HTTPAPI_Init fails exactly if libcurl's initialisation fails; surplus HTTPAPI_Deinit calls have no effect.", "quantifier": "all histories of fewer than 2^64 calls", "why_tests_cant": "unbounded histories", "anchors": ["adapters/httpapi_curl.c: HTTPAPI_Init, HTTPAPI_Deinit"]}
{"id": "C70", "title": "libcurl handles are used only while they are owned, and nothing leaks", "statement": "Each connection obtains one easy handle, uses it only after it was obtained and before it is given up, never while a transfer is running, and gives it up exactly once when closed; after all connections are closed and all users are gone, the memory is what it was before. All calls end without undefined behaviour.", "quantifier": "all histories of calls on any number of connections, all failing allocations, all answers of libcurl", "why_tests_cant": "every failure point in every history", "anchors": ["adapters/httpapi_curl.c: HTTPAPI_CreateConnection, HTTPAPI_CloseConnection, HTTPAPI_ExecuteRequest"]}
{"id": "C71", "title": "A lock is held by at most one thread, and its functions are safe for any interleaving", "statement": "If threads only lock a live lock they do not hold, unlock what they hold, and give a lock up when nobody uses it, then at every moment at most one thread holds a lock (between a successful Lock and the call of Unlock, not during Condition_Wait); no call of the operating system has undefined behaviour (unlocking a mutex of another thread, destroying one in use, use after release, ...); a returned handle is new; a thread inside Lock gets the lock unless another thread has or uses it or the operating system refuses; results are as documented (NULL is refused); when no thread is inside a function exactly the live locks and condition variables are allocated.", "quantifier": "all numbers of threads, all interleavings of the calls and of the operating-system calls inside them, all failures of malloc and of the mutex functions", "why_tests_cant": "all schedules", "anchors": ["adapters/lock_pthreads.c: Lock_Init, Lock, Unlock, Lock_Deinit"]}
{"id": "C72", "title": "Condition variables work as a monitor: no wake-up is lost", "statement": "A thread that has called Condition_Wait and has since given the lock up (another thread has held it) is awake after a Condition_Post that began later has succeeded: it returns as soon as it owns the lock again, which it does unless another thread has or uses the lock. Condition_Wait returns with the lock held; a wait ended by a post returns COND_OK, COND_TIMEOUT is returned only for a positive limit that has ended the wait; NULL handles are refused with COND_INVALID_ARG; all calls of the operating system are defined (all waiters use one mutex, no destruction while threads wait).", "quantifier": "all numbers of threads, all interleavings, spurious wake-ups, timeouts at any time, all failures of the condition functions except initialisation", "why_tests_cant": "all schedules", "anchors": ["adapters/condition_pthreads.c: Condition_Post, Condition_Wait, Condition_Deinit", "adapters/lock_pthreads.c: Lock, Unlock"]}
{"id": "C73", "title": "Locks and condition variables give the same guarantees on the other platforms", "statement": "With the C11, Windows and mbed implementations of the lock interface (and the C11 condition variables) as with the pthreads one: at most one thread holds a lock; no operating-system call is undefined; handles are new; results are as documented; exactly the live locks and conditions are allocated; a post wakes every thread that gave the lock up in Condition_Wait before it; a thread inside Lock gets the lock unless another has it or the operating system refuses.", "quantifier": "all numbers of threads, all interleavings, all failures the platform allows", "why_tests_cant": "all schedules, and platforms the tests do not run on", "anchors": ["adapters/lock_c11.c", "adapters/condition_c11.c", "adapters/lock_win32.c", "adapters/lock_rtx_mbed.cpp"]}
{"id": "C74", "title": "The Windows tick counter measures elapsed time", "statement": "tickcounter_get_current_ms reports the number of milliseconds since tickcounter_create, whatever the history of calls; values never decrease; the calls have no undefined behaviour.", "quantifier": "all counter frequencies, all sequences of readings of the performance counter, all histories of calls", "why_tests_cant": "the error adds up over arbitrarily many calls", "anchors": ["adapters/tickcounter_win32.c: tickcounter_create, tickcounter_get_current_ms"]}
{"id": "C75", "title": "Windows threads run what they were created with, are joined once, and success means a thread exists", "statement": "ThreadAPI_Create answers THREADAPI_OK only if a thread was created; the thread calls the given function with the given argument; ThreadAPI_Join returns only when the thread is done, gives its result (all ints), and closes the thread's handle exactly once.", "quantifier": "all histories of calls and all schedules, all failures of the system", "why_tests_cant": "schedules and system failures", "anchors": ["adapters/threadapi_win32.c: ThreadAPI_Create, ThreadAPI_Join, ThreadAPI_Exit"]}
{"id": "C76", "title": "C11 threads run what they were created with and are joined without leak", "statement": "ThreadAPI_Create answers THREADAPI_OK exactly if a thread was created; the thread calls the given function with the given argument; ThreadAPI_Join returns only when the thread is done (or the library reports an error), gives its result, and releases the handle: memory in use is one block per handle not yet joined. No undefined behaviour.", "quantifier": "all histories of calls and all schedules, all failures of memory and of the thread library", "why_tests_cant": "schedules and failures", "anchors": ["adapters/threadapi_c11.c: ThreadAPI_Create, ThreadAPI_Join"]}
{"id": "C77", "title": "mbed threads can be created, run and joined", "statement": "Each successful ThreadAPI_Create gives a handle of its own; the thread calls the given function with the given argument; ThreadAPI_Join returns when the thread has ended, with its result; a joined thread no longer counts against the limit of four. ThreadAPI_Sleep waits the given time.", "quantifier": "all histories of calls and all schedules", "why_tests_cant": "schedules; long histories", "anchors": ["adapters/threadapi_rtx_mbed.cpp: ThreadAPI_Create, ThreadAPI_Join, ThreadAPI_Exit, ThreadAPI_Sleep"]}
{"id": "C78", "title": "A C11 Condition_Wait does not time out early", "statement": "The deadline passed to cnd_timedwait is a valid time exactly the given number of milliseconds after the call.", "quantifier": "all times of call, all timeouts", "why_tests_cant": "depends on the sub-second phase of the clock", "anchors": ["adapters/condition_c11.c: Condition_Wait"]}
{"id": "C79", "title": "Schannel TLS IO: received bytes reach SSPI once, in order, without loss", "statement": "What SSPI is given (in the handshake and for decryption) is, at every moment, exactly the bytes the lower IO has delivered that SSPI has not used yet; it is asked as soon as as many bytes are there as it said it needs, and not before; bytes are lost only for want of memory, and then the user is told. No byte outside the receive block, and no byte never written, is read; no uninitialised field is used.", "quantifier": "all histories of calls, events and callbacks (re-entrant to any depth), all answers of SSPI, of the lower IO and of the allocator, any number of TLS IOs", "why_tests_cant": "unbounded histories with re-entrant callbacks, every split of the stream, every allocation failure", "anchors": ["src/tlsio_schannel.c: on_underlying_io_bytes_received, resize_receive_buffer, set_receive_buffer, on_underlying_io_open_complete"]}
{"id": "C80", "title": "Schannel TLS IO passes exactly the right bytes out and to the user", "statement": "The user is delivered exactly what SSPI has decrypted, all of it, at once, through the callback of the accepted open; a send on a TLS IO that is not open is refused; an accepted send gives SSPI the bytes of the user in pieces of at most 16384, in order; the lower IO is given exactly the record SSPI made of each piece, and the user's completion callback with the last one only; a send succeeds exactly if every piece was encrypted and accepted. The buffer for a record is as long as SSPI asks for.", "quantifier": "all histories of calls, events and callbacks (re-entrant to any depth), all answers of SSPI, of the lower IO and of the allocator, any number of TLS IOs", "why_tests_cant": "unbounded histories with re-entrant callbacks, every size and every failure point", "anchors": ["src/tlsio_schannel.c: tlsio_schannel_send, send_chunk, on_underlying_io_bytes_received"]}
{"id": "C81", "title": "Schannel TLS IO reports the outcome of open and close, truthfully", "statement": "Success of an open is reported only when SSPI has finished the handshake over a lower IO that was opened; every failure before is reported as a failed open, every failure after through the error callback; an open is refused unless the TLS IO is closed; a refused open or close leaves it usable; an accepted close is answered when the lower IO has closed.", "quantifier": "all histories of calls, events and callbacks (re-entrant to any depth), all answers of SSPI, of the lower IO and of the allocator, any number of TLS IOs", "why_tests_cant": "unbounded histories with re-entrant callbacks and every status SSPI may answer", "anchors": ["src/tlsio_schannel.c: tlsio_schannel_open, tlsio_schannel_close, on_underlying_io_open_complete, on_underlying_io_error, on_underlying_io_close_complete, on_underlying_io_bytes_received"]}
{"id": "C82", "title": "Schannel TLS IO does not leak, reuse or double-free its resources", "statement": "Every instance, host name, record buffer, receive block, credential handle, security context and lower IO obtained is released exactly once: whenever no function is in progress what is held is exactly what the TLS IOs alive own, and after all are destroyed nothing is held; a creation that fails holds nothing.", "quantifier": "all histories of calls, events and callbacks (re-entrant to any depth), all answers of SSPI, of the lower IO and of the allocator, any number of TLS IOs", "why_tests_cant": "every failure point in every history", "anchors": ["src/tlsio_schannel.c: tlsio_schannel_create, tlsio_schannel_destroy, send_chunk, on_underlying_io_open_complete"]}
{"id": "C83", "title": "mbed tick counter is monotone and follows the time", "statement": "Values read from one tick counter never decrease, and the last value minus the value at creation is the number of milliseconds elapsed, for every sequence of readings, including across wraps of the 32-bit clock.", "quantifier": "all clock frequencies, all histories of readings at any times", "why_tests_cant": "drift accumulates over unboundedly many readings and the clock wraps only after more than an hour", "anchors": ["adapters/tickcounter_mbed.cpp: tickcounter_create, tickcounter_get_current_ms"]}
{"id": "C84", "title": "Unique id generation on Linux and Windows writes one terminated 36-character text and nothing else", "statement": "For every buffer of at least 37 bytes UniqueId_Generate either writes the 36-character text of the identifier the platform made, terminated by NUL, inside the first len bytes and returns OK, or fails and leaves the buffer alone; it reads and writes no byte outside the buffers; on bad arguments it writes nothing; the platform's string is released.", "quantifier": "all buffers and lengths, all identifiers and answers of the platform", "why_tests_cant": "all lengths and all platform answers; an out-of-bounds read is not visible in a test's result", "anchors": ["adapters/uniqueid_linux.c: UniqueId_Generate", "adapters/uniqueid_win32.c: UniqueId_Generate"]}
{"id": "C85", "title": "HTTPAPI on TI-RTOS: every client is released once and the HTTP client is driven in the order of HTTP", "statement": "Whatever the history of HTTPAPI calls and whatever HTTPCli answers: every client obtained from HTTPCli is given up exactly once or belongs to an open connection; it is connected (port 443) before a request, disconnected before it is given up, never used afterwards; each request is sent and answered in the order request line, fields, end of fields, body, status, response headers, response body; after a failure nothing follows but a new request or the end; no undefined behaviour.", "quantifier": "all histories of HTTPAPI calls on any number of connections, all answers of HTTPCli within its contract, any allocator", "why_tests_cant": "every failure point of every history on any number of connections", "anchors": ["adapters/httpapi_tirtos.c: HTTPAPI_CreateConnection, HTTPAPI_CloseConnection, HTTPAPI_ExecuteRequest"]}
{"id": "C86", "title": "HTTPAPI on TI-RTOS sends the request the client asked for", "statement": "A request that returns HTTPAPI_OK was sent once with the method and path of the call, with every header of the headers object exactly once (names and values unchanged), and with exactly the bytes of the content; HTTPCli accepted each part; the caller's objects are unchanged.", "quantifier": "all requests (methods, paths, header lists, bodies) in all histories", "why_tests_cant": "all header lists and bodies", "anchors": ["adapters/httpapi_tirtos.c: HTTPAPI_ExecuteRequest, splitHeader, getHttpMethod"]}
{"id": "C87", "title": "HTTPAPI on TI-RTOS reports the response that arrived", "statement": "If a request returns HTTPAPI_OK, the status code is the one received, the response headers are the received lines (whatever pieces they came in) added to the headers object, and the response buffer holds exactly the received body; if the response cannot be received or stored the result is not HTTPAPI_OK.", "quantifier": "all responses, split into pieces in all ways, all points of failure", "why_tests_cant": "all splittings and failure points", "anchors": ["adapters/httpapi_tirtos.c: HTTPAPI_ExecuteRequest"]}
{"id": "C88", "title": "HTTPAPI on TI-RTOS does not leak memory", "statement": "Every block of memory allocated by a call on its own behalf is released when it returns, whatever the library and the allocator answer.", "quantifier": "all histories, all answers of HTTPCli and of the allocator", "why_tests_cant": "all failure points", "anchors": ["adapters/httpapi_tirtos.c: HTTPAPI_ExecuteRequest"]}
{"id": "C89", "title": "HTTPAPI on mbed reports the response that arrived", "statement": "HTTPAPI_ExecuteRequest reads exactly one response, however the bytes are cut into pieces by the network: if the peer sends a well-formed HTTP/1.1 response, with Content-Length or in chunks, the caller gets its status code, all its headers in order, and exactly its body, and not a byte after it is consumed; if the response is malformed, cut short, or cannot be stored, the result is not HTTPAPI_OK; no undefined behaviour.", "quantifier": "all responses (any bytes), cut into pieces in all ways, any content of the caller's objects", "why_tests_cant": "all byte streams and all ways of cutting them into pieces", "anchors": ["adapters/httpapi_mbed.cpp: HTTPAPI_ExecuteRequest, readLine, readChunk, skipN"]}
{"id": "C90", "title": "HTTPAPI on mbed sends the request the client asked for", "statement": "For each call of HTTPAPI_ExecuteRequest that gets as far as reading a response, exactly the text of the request (method, path, headers in order, empty line, body, as HTTP/1.1 prescribes) was sent on the connection; a call that failed while sending sent a part of it from its start; other calls sent nothing; what was sent on a connection is the sequence of these texts.", "quantifier": "all histories of HTTPAPI calls on any number of handles", "why_tests_cant": "all header lists and bodies, all points of failure of the network", "anchors": ["adapters/httpapi_mbed.cpp: HTTPAPI_ExecuteRequest"]}
{"id": "C91", "title": "HTTPAPI on mbed pairs every response with its request", "statement": "On a connection that serves several requests, the result of the k-th request is the k-th response the peer sent; nothing of a response is left for the next request.", "quantifier": "all histories of requests on one connection, all peers", "why_tests_cant": "all histories and all responses, with any bytes", "anchors": ["adapters/httpapi_mbed.cpp: HTTPAPI_ExecuteRequest"]}
{"id": "C92", "title": "HTTPAPI on mbed: connections are opened with the certificate that was set, and everything is released once", "statement": "The connection object of a handle is constructed once, connected (to the handle's host, port 443) only after the certificate set last was loaded into it, closed before it is destroyed, destroyed once with the handle; options set other than TrustedCerts are refused; copies of options are what was given; memory of handles, certificates and clones is released exactly once; no undefined behaviour.", "quantifier": "all histories of HTTPAPI calls on any number of handles, all answers of the connection", "why_tests_cant": "every order of calls and every failure point", "anchors": ["adapters/httpapi_mbed.cpp: HTTPAPI_CreateConnection, HTTPAPI_CloseConnection, HTTPAPI_SetOption, HTTPAPI_CloneOption"]}
{"id": "C93", "title": "The TLS connection class of mbed passes on exactly the stream of its session", "statement": "While a WolfSSLConnection is connected, what the peer gets are the data of the calls of send/send_all since connect succeeded, in order and without gaps, completely if the call returned the length; what receive/receive_all return are, in order and without gaps, the first bytes the peer sent; when it is not connected nothing is sent or received; the class is a connection as httpapi_mbed.cpp needs it.", "quantifier": "all sequences of method calls from the constructor to the destructor, all behaviours of wolfSSL, lwIP and the peer", "why_tests_cant": "all call sequences, partial writes and reads, failures at any call", "anchors": ["adapters/wolfssl_connection.cpp: WolfSSLConnection::connect, send, send_all, receive, receive_all, close, is_connected, load_certificate, receiveCallback, sendCallback"]}
{"id": "C94", "title": "The TLS connection class of mbed releases what it obtained, once", "statement": "An object has at most one socket; it is closed exactly once, at the latest by the destructor; the TLS context is never used after its last reference was given up; when the object is destroyed no reference on the context, session or socket is left.", "quantifier": "all sequences of method calls from the constructor to the destructor, all failures of wolfSSL and lwIP", "why_tests_cant": "every order of calls and every failure point", "anchors": ["adapters/wolfssl_connection.cpp: WolfSSLConnection::WolfSSLConnection, ~WolfSSLConnection, connect, close"]}
{"id": "C95", "title": "A TLS connection of mbed can be tried again", "statement": "After connect has failed (host unknown, not reachable, handshake refused) the object is as before: connect may be called again, and succeeds when the peer can be reached.", "quantifier": "all sequences of method calls, all failures of wolfSSL and lwIP", "why_tests_cant": "every failure point, any number of retries", "anchors": ["adapters/wolfssl_connection.cpp: WolfSSLConnection::connect, close"]}
{"id": "C96", "title": "Windows socket IO: bytes go out once, in order, on their connection", "statement": "The bytes taken by the socket of an open handle are a prefix of the bytes of the accepted sends made since it was opened, in order, each byte once; the bytes of a refused send are never sent; once the queue is empty everything accepted has been sent.", "quantifier": "all histories of create, open, close, send, dowork and destroy on any number of handles, all results of the Winsock calls, all allocation failures", "why_tests_cant": "all interleavings of partial sends, busy sockets and failures", "anchors": ["adapters/socketio_win32.c: socketio_send, socketio_dowork, add_pending_io, socketio_close"]}
{"id": "C97", "title": "Windows socket IO: every accepted send completes once, every failure and every received byte is reported", "statement": "For every accepted send the completion callback is called exactly once, with success only after the socket has taken all its bytes; a send whose bytes are lost is reported as failed or through the error callback; each received byte is handed once, in order, to the callback given to open.", "quantifier": "all histories, all results of Winsock, all allocation failures", "why_tests_cant": "all schedules of busy and failing sockets", "anchors": ["adapters/socketio_win32.c: socketio_send, socketio_dowork, indicate_error"]}
{"id": "C98", "title": "Windows socket IO: states, sockets, address lists and memory", "statement": "No call is undefined behaviour; sends on a handle that is not open are refused without effect, dowork on it does nothing, close of an open handle closes its socket and reports once; every socket obtained is closed exactly once when its handle is closed or destroyed, and every address list is freed exactly once.", "quantifier": "all histories on any number of handles, all Winsock results, all allocation failures", "why_tests_cant": "all histories and failure points", "anchors": ["adapters/socketio_win32.c: socketio_create, socketio_destroy, socketio_open, socketio_close, socketio_send, socketio_dowork"]}
{"id": "C99", "title": "Windows socket IO: dowork returns", "statement": "socketio_dowork, on a socket that was made nonblocking, returns after a number of system calls bounded by the number of queued sends and of bytes that have arrived.", "quantifier": "all states of the handle, all results of Winsock", "why_tests_cant": "termination for every behaviour of the peer", "anchors": ["adapters/socketio_win32.c: socketio_dowork"]}
{"id": "C100", "title": "mbed socket IO: bytes go out once, in order, on their connection", "statement": "The bytes taken by the connection of an open handle are a prefix of the bytes of the accepted sends made since it was opened, in order, each byte once; the bytes of a refused send are never sent; once the queue is empty everything accepted has been sent.", "quantifier": "all histories of create, open, close, send, dowork and destroy on any number of handles, all results of TCPSocketConnection, all allocation failures", "why_tests_cant": "all interleavings of partial sends, attempts that fail for now and broken connections", "anchors": ["adapters/socketio_mbed.c: socketio_send, socketio_dowork, add_pending_io, socketio_close", "adapters/tcpsocketconnection_c.cpp"]}
{"id": "C101", "title": "mbed socket IO: completions, failures and received blocks are reported", "statement": "For every accepted send the completion callback is called at most once, with success only after the connection has taken all its bytes; a broken connection is reported to the error callback when it is noticed, and sends are refused from then on until the handle is closed; each received block is handed once, in order, to the callback given to open.", "quantifier": "all histories, all results of TCPSocketConnection, all allocation failures", "why_tests_cant": "all schedules of full and failing connections", "anchors": ["adapters/socketio_mbed.c: socketio_send, socketio_dowork, indicate_error"]}
{"id": "C102", "title": "mbed socket IO: states, connection objects and memory", "statement": "No call is undefined behaviour; sends on a handle that is not open are refused without effect, dowork on it does nothing, close of an open handle closes its connection and reports once; every connection object made is deleted exactly once, when its handle is closed or destroyed.", "quantifier": "all histories on any number of handles, all results of TCPSocketConnection, all allocation failures", "why_tests_cant": "all histories and failure points", "anchors": ["adapters/socketio_mbed.c: socketio_create, socketio_destroy, socketio_open, socketio_close, socketio_send, socketio_dowork", "adapters/tcpsocketconnection_c.cpp: tcpsocketconnection_create, tcpsocketconnection_destroy"]}
{"id": "C103", "title": "mbed socket IO: dowork returns", "statement": "socketio_dowork, on a connection that was made nonblocking, returns after a number of calls bounded by the number of queued sends and of blocks that have arrived.", "quantifier": "all states of the handle, all results of TCPSocketConnection", "why_tests_cant": "termination for every behaviour of the peer", "anchors": ["adapters/socketio_mbed.c: socketio_dowork"]}
{"id": "C104", "title": "WinHTTP HTTP client: a request is sent once and as asked", "statement": "HTTPAPI_ExecuteRequest sends at most one request, on the connection of its handle, with the method, path, headers and the timeout set last; a request that reports HTTPAPI_OK was sent with its whole body. Nothing is sent before HTTPAPI_Init, for missing arguments, or for an unknown method.", "quantifier": "all histories of calls on any number of connections, all headers, paths and bodies, all results of WinHTTP, all refusals of memory", "why_tests_cant": "headers and bodies of any size, histories and failures of WinHTTP at any point cannot be enumerated", "anchors": ["adapters/httpapi_winhttp.c: HTTPAPI_ExecuteRequest", "adapters/httpapi_winhttp.c: ConstructHeadersString"]}
{"id": "C105", "title": "WinHTTP HTTP client: the response is delivered", "statement": "A request that reports HTTPAPI_OK gives the client the status code, the body and the headers of the response; a request that has not received a response changes nothing of the client's; failures before the end of the body are reported.", "quantifier": "all histories, all responses cut into any pieces, all results of WinHTTP, all refusals of memory", "why_tests_cant": "every way to cut a response into pieces, and failures at any of them", "anchors": ["adapters/httpapi_winhttp.c: HTTPAPI_ExecuteRequest"]}
{"id": "C106", "title": "WinHTTP HTTP client: handles are closed exactly once", "statement": "Every session, connection and request handle obtained from WinHTTP is closed exactly once, and no call is made on a handle that is not open; the session is held exactly while HTTPAPI_Init was called more often than HTTPAPI_Deinit.", "quantifier": "all histories of calls, all results of WinHTTP", "why_tests_cant": "leaks and uses after close depend on the whole history", "anchors": ["adapters/httpapi_winhttp.c: HTTPAPI_Init, HTTPAPI_Deinit, HTTPAPI_CreateConnection, HTTPAPI_CloseConnection, HTTPAPI_ExecuteRequest"]}
{"id": "C107", "title": "WinHTTP HTTP client: no memory is lost", "statement": "When all connections are closed, no memory of the module is left; HTTPAPI_CreateConnection gives a connection or NULL; no call accesses memory that is not its own.", "quantifier": "all histories of calls, all results of WinHTTP, all refusals of memory", "why_tests_cant": "every point at which memory can be refused in every history", "anchors": ["adapters/httpapi_winhttp.c: HTTPAPI_CreateConnection, HTTPAPI_CloseConnection, HTTPAPI_ExecuteRequest, HTTPAPI_CloneOption"]}
{"id": "C108", "title": "socketio reports every failure once and hands over every received byte once", "statement": "While a handle is open, the error callback given to socketio_open is called exactly once for every attempt to send that fails, in socketio_send and in socketio_dowork, and for nothing else; every byte received from the socket is handed to the callback for received bytes exactly once, in order, with the registered context; after a failure under socketio_dowork every send is refused until the handle is closed; and the loss of the connection (the peer closes it, or receiving fails) is reported.", "quantifier": "all histories of calls on any number of handles, all results of the operating system, all callbacks (NULL included)", "why_tests_cant": "depends on every interleaving of partial sends, failures and received bytes chosen by the operating system", "anchors": ["adapters/socketio_berkeley.c: socketio_send, socketio_dowork, indicate_error"]}
{"id": "C109", "title": "socketio_dowork returns", "statement": "socketio_dowork returns after finitely many calls to the operating system, whatever is queued.", "quantifier": "all histories, all results of the operating system", "why_tests_cant": "non-termination needs an unbounded sequence of results of send", "anchors": ["adapters/socketio_berkeley.c: socketio_dowork"]}
{"id": "C110", "title": "On Windows CE a server is trusted only if the device's stores vouch for it", "statement": "With the default (strict) setting the certificate a server presents is accepted by the TLS validation callback only if that very certificate is in one of the device's certificate stores CA, ROOT, MY; a certificate that is in one of those that can be opened is accepted; a certificate of a kind that is not X.509 or that cannot be decoded is never accepted (unless checks are switched off), and nothing is accepted without looking at a store.", "quantifier": "every certificate, every content of the three stores, every setting, every failure to open a store or to decode", "why_tests_cant": "the set of certificates and store contents is unbounded; a test only tries certificates somebody thought of, not one made to collide", "anchors": ["adapters/httpapi_wince.c: SSLValidateCertHook, g_SslOptions"]}
{"id": "C111", "title": "Checking a server certificate leaks nothing and uses nothing released", "statement": "Whatever the stores contain and whichever step fails, every certificate context and every store that the validation callback obtains is released exactly once, and none is used or released when it is not held.", "quantifier": "every certificate, store contents, setting and failure", "why_tests_cant": "the number of rounds and the exit taken depend on the contents of the stores; each of the exits must release a different set of things", "anchors": ["adapters/httpapi_wince.c: SSLValidateCertHook"]}
{"id": "C112", "title": "On Windows CE the result of a request tells whether it was sent", "statement": "If HTTPAPI_ExecuteRequest returns HTTPAPI_OK, the whole request was sent to the peer on a connection to the handle's host and the response was read; if no connection could be made the result is an error. A handle for which making a connection failed tries again with the next request.", "quantifier": "every history of calls on any number of handles, every behaviour of Winsock (failing at any call), every peer", "why_tests_cant": "which call of Winsock fails, and on which request of a history, is unbounded; the result must be right for each", "anchors": ["adapters/httpapi_wince.c: HTTPAPI_ExecuteRequest, SSLInit"]}
{"id": "C113", "title": "On Windows CE every connection is a validated TLS connection to the handle's host", "statement": "Every connection that is made goes to port 443 of the host given to HTTPAPI_CreateConnection, on a socket for which security, the certificate-validation callback and TLS were set successfully, in this order, just before, while the strict validation setting is in force; and no data is sent on any other socket.", "quantifier": "every history, every failure of Winsock", "why_tests_cant": "security must hold on every path to connect, including those after failures of earlier requests", "anchors": ["adapters/httpapi_wince.c: HTTPAPI_ExecuteRequest, SSLInit, g_SslOptions"]}
{"id": "C114", "title": "On Windows CE responses belong to their requests", "statement": "On one handle the k-th answered request returns the status, headers and body of the k-th response of the peer; all requests of a handle go to one peer, in order, and nothing of a response is left for the next one.", "quantifier": "every history of requests on every handle, every peer that answers in order, every segmentation of the stream", "why_tests_cant": "the alignment of requests and responses is an invariant of the whole history and of every way the stream is cut into pieces", "anchors": ["adapters/httpapi_wince.c: HTTPAPI_ExecuteRequest, readLine, readChunk, skipN"]}
{"id": "C115", "title": "On Windows CE handles, sockets and memory are released, and nothing else is touched", "statement": "For every history: no undefined behaviour; HTTPAPI_CloseConnection releases the handle and closes its socket; each socket is closed at most once, and none is used after that; a handle has at most one socket.", "quantifier": "every history of calls, every host name, every failure of Winsock", "why_tests_cant": "resource balance and memory safety over all histories and host names", "anchors": ["adapters/httpapi_wince.c: HTTPAPI_CreateConnection, HTTPAPI_CloseConnection, HTTPAPI_ExecuteRequest, HTTPAPI_Init, HTTPAPI_Deinit, HTTPAPI_CloneOption"]}
{"id": "C116", "title": "The platform stays available to every module that initialised it", "statement": "After platform_init has returned 0, what it provides (Winsock on Windows, the network connection and a set clock on mbed) stays available until the matching platform_deinit, however calls of several modules are nested; a platform_init that fails leaves nothing started or connected.", "quantifier": "every sequence of platform_init and platform_deinit, every failure of the operating system at any call", "why_tests_cant": "nesting depth and the points of failure are unbounded", "anchors": ["adapters/platform_win32.c: platform_init, platform_deinit", "adapters/platform_mbed.cpp: platform_init, setupRealTime, platform_deinit", "adapters/platform_linux.c", "adapters/platform_stub.c"]}
{"id": "C117", "title": "What goes to the network is what the client asked for, call by call", "statement": "In every history of HTTP calls, on every platform (libcurl, TI, WinHTTP, mbed, Windows CE) and through HTTPAPIEX, each call of the client is answered once and in order, and if memory is not refused, whatever is sent for a request comes from the client's own call: the host is the one given when that very handle was created, the method, path and content are those of that call, and the headers are those of its list (those with a valid name; values of equal names joined; leading white space of values dropped), whatever other calls were made before, after or on other handles.", "quantifier": "every history of calls on any number of handles, every list of headers that fits into memory, every behaviour of the platform library", "why_tests_cant": "histories, handles and header lists are unbounded; mixing up handles or arguments shows only in particular interleavings of calls", "anchors": ["adapters/httpapi_curl.c", "adapters/httpapi_ti.c", "adapters/httpapi_winhttp.c", "adapters/httpapi_mbed.cpp", "adapters/httpapi_wince.c", "src/httpapiex.c: HTTPAPIEX_ExecuteRequest", "src/httpheaders.c: HTTPHeaders_AddHeaderNameValuePair"]}
{"id": "C118", "title": "A client may send on a socket handle from within its callbacks", "statement": "socketio_send may be called on a handle from within the completion callback and the receive callback that the library calls for this handle, and again from the callbacks these calls cause, to any depth: the program stays defined, every call returns, and no memory is lost. Messages, whether accepted from a call or from within a callback, leave in the order in which they were accepted; the completion callback of each is called at most once, when it leaves, and not before those accepted earlier; while the handle exists none is lost. While the socket takes each message whole and memory is not refused, one call of socketio_dowork sends all that waits and all that is asked for in the completion callbacks meanwhile, in order, each once and with one completion.", "quantifier": "every history of calls on any number of handles, every client (any function from callbacks to lists of messages), every depth of nesting, every behaviour of the socket and every refusal of memory", "why_tests_cant": "a test fixes one client and one answer of the socket; the queue is changed while it is being emptied, and clients, depths and histories are unbounded", "anchors": ["adapters/socketio_berkeley.c: socketio_send, socketio_dowork, add_pending_io", "src/list.c: list_add, list_remove"]}
{"id": "C119", "title": "After a close nothing happens on a socket handle until it is opened again", "statement": "Once socketio_close has returned for a handle, also when it was called from within one of the callbacks of the handle, the socket is used no more, no callback is called, and the handle can be opened again.", "quantifier": "every history of calls, whatever the socket does", "why_tests_cant": "it depends on where in a call the handle is closed and what is still waiting then", "anchors": ["adapters/socketio_berkeley.c: socketio_close, socketio_dowork, socketio_open"]}
{"id": "C120", "title": "A socket IO used through xio behaves as the socket IO itself", "statement": "Calls made through xio on handles created with the socket IO's interface description do what the same calls on the socket IO itself do: the same calls reach the operating system and the callbacks in the same order, calls succeed and fail alike, everything holds of them that holds of socket IO histories, and when all handles are destroyed no memory of either layer and no descriptor is left.", "quantifier": "every history of xio calls on any number of handles, every behaviour of the operating system, every refusal of memory", "why_tests_cant": "it is about all histories, including failures inside either layer while a handle is created", "anchors": ["src/xio.c: xio_create, xio_destroy, xio_open, xio_close, xio_send, xio_dowork, xio_setoption", "adapters/socketio_berkeley.c: socketio_get_interface_description, socket_io_interface_description"]}
