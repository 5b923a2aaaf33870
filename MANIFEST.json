{
 "claims": [
  {
   "property": "C01",
   "status": "partial",
   "theorems": [
    "Verif.Buffer.BUFFER_create_spec",
    "Verif.Buffer.BUFFER_build_spec",
    "Verif.Buffer.BUFFER_pre_build_spec",
    "Verif.Buffer.BUFFER_unbuild_spec",
    "Verif.Buffer.BUFFER_enlarge_spec_partial",
    "Verif.Buffer.BUFFER_length_spec",
    "Verif.Buffer.BUFFER_size_spec",
    "Verif.Buffer.BUFFER_u_char_spec",
    "Verif.Buffer.BUFFER_content_spec",
    "Verif.Buffer.BUFFER_append_spec_partial",
    "Verif.Buffer.BUFFER_prepend_spec",
    "Verif.Buffer.BUFFER_clone_spec",
    "Verif.Buffer.BUFFER_history_partial",
    "Verif.Buffer.BUFFER_enlarge_wraps"
   ],
   "note": "Proved for every buffer, size and allocator. Missing: BUFFER_enlarge when the sum of sizes wraps size_t (the code then shrinks the buffer and reports success: BUFFER_enlarge_wraps)."
  },
  {
   "property": "C02",
   "status": "partial",
   "theorems": [
    "Verif.Buffer.BUFFER_new_spec",
    "Verif.Buffer.BUFFER_create_spec",
    "Verif.Buffer.BUFFER_build_spec",
    "Verif.Buffer.BUFFER_pre_build_spec",
    "Verif.Buffer.BUFFER_unbuild_spec",
    "Verif.Buffer.BUFFER_enlarge_spec_partial",
    "Verif.Buffer.BUFFER_append_spec_partial",
    "Verif.Buffer.BUFFER_append_self",
    "Verif.Buffer.BUFFER_prepend_spec",
    "Verif.Buffer.BUFFER_clone_spec",
    "Verif.Buffer.BUFFER_history_partial"
   ],
   "note": "Failure leaves all buffers unchanged; failure only for argument errors or allocator refusal. Missing: append of two zero-length buffers (undefined behaviour in the code)."
  },
  {
   "property": "C03",
   "status": "partial",
   "theorems": [
    "Verif.Buffer.BUFFER_no_leak_partial",
    "Verif.Buffer.BUFFER_history_partial",
    "Verif.Buffer.BUFFER_delete_spec",
    "Verif.Buffer.BUFFER_append_two_empty_is_UB"
   ],
   "note": "No leak, double free or out-of-bounds access for every history and allocator, except BUFFER_append of a zero-length buffer to a zero-length buffer, where the code calls realloc(p,0): BUFFER_append_two_empty_is_UB."
  },
  {
   "property": "C04",
   "status": "partial",
   "theorems": [
    "Verif.Strings.STRING_new_spec",
    "Verif.Strings.STRING_construct_spec",
    "Verif.Strings.STRING_construct_n_spec",
    "Verif.Strings.STRING_new_with_memory_spec",
    "Verif.Strings.STRING_new_quoted_spec",
    "Verif.Strings.STRING_clone_spec",
    "Verif.Strings.STRING_concat_spec",
    "Verif.Strings.STRING_concat_with_STRING_spec_partial",
    "Verif.Strings.STRING_copy_spec",
    "Verif.Strings.STRING_copy_self",
    "Verif.Strings.STRING_copy_n_spec",
    "Verif.Strings.STRING_quote_spec",
    "Verif.Strings.STRING_empty_spec",
    "Verif.Strings.STRING_c_str_spec",
    "Verif.Strings.STRING_length_spec",
    "Verif.Strings.STRING_history_partial"
   ],
   "note": "Proved for all texts, n and allocators, per call and over histories of many handles. Missing only: appending a string to itself (undefined behaviour in the code, see C05)."
  },
  {
   "property": "C05",
   "status": "partial",
   "theorems": [
    "Verif.Strings.STRING_history_partial",
    "Verif.Strings.STRING_no_leak_partial",
    "Verif.Strings.STRING_delete_spec",
    "Verif.Strings.STRING_concat_self_is_UB"
   ],
   "note": "Proved for every history and allocation-failure pattern in which no string is appended to itself; STRING_concat_self_is_UB shows the code does not have the property without that restriction."
  },
  {
   "property": "C06",
   "status": "proved",
   "theorems": [
    "Verif.Strings.STRING_new_JSON_spec",
    "Verif.Strings.jsonText_reads",
    "Verif.Json.JString.unique"
   ],
   "note": "RFC 8259 string grammar and decoder are in Strings/JsonSpec.lean, independent of the code; exact size and bounds follow from the triple (no undefined behaviour)."
  },
  {
   "property": "C07",
   "status": "proved",
   "theorems": [
    "Verif.Strings.STRING_compare_spec",
    "Verif.Strings.STRING_compare_self",
    "Verif.Strings.compare_eq_zero",
    "Verif.Strings.compare_antisymm",
    "Verif.Strings.compare_trans",
    "Verif.Strings.compare_lt",
    "Verif.Strings.compare_null"
   ],
   "note": "STRING_compare computes compareSpec; the order laws are proved for all texts and NULL."
  },
  {
   "property": "C26",
   "status": "partial",
   "theorems": [
    "Verif.Crt.strcpy_s_spec_partial",
    "Verif.Crt.strcat_s_spec_partial",
    "Verif.Crt.strncpy_s_spec",
    "Verif.Crt.safe_null",
    "Verif.Crt.sprintf_s_spec_partial",
    "Verif.Crt.mallocAndStrcpy_s_spec",
    "Verif.Crt.strcpy_s_size0_writes"
   ],
   "note": "Missing: destination size 0, where strcpy_s and strcat_s store a NUL in dst[0] (strcpy_s_size0_writes)."
  },
  {
   "property": "C27",
   "status": "proved",
   "theorems": [
    "Verif.Crt.unsignedIntToString_spec",
    "Verif.Crt.size_tToString_spec",
    "Verif.Crt.toString_null",
    "Verif.Crt.size_tToString_21",
    "Verif.Crt.IsDecimal.unique",
    "Verif.Crt.decimal_is",
    "Verif.Crt.decimal_length_64",
    "Verif.Crt.decimal_length_32"
   ],
   "note": "The written text is the unique canonical decimal text of the value, and success is exactly when it fits."
  },
  {
   "property": "C08",
   "status": "proved",
   "theorems": [
    "Verif.Map.Map_Create_spec",
    "Verif.Map.Map_Add_spec",
    "Verif.Map.Map_AddOrUpdate_spec",
    "Verif.Map.Map_Delete_spec",
    "Verif.Map.Map_ContainsKey_spec",
    "Verif.Map.Map_ContainsValue_spec",
    "Verif.Map.Map_GetValueFromKey_spec",
    "Verif.Map.Map_GetInternals_spec",
    "Verif.Map.Map_history",
    "Verif.Map.Map_keys_unique",
    "Verif.Map.Map_AddOrUpdate_own_value_is_UB"
   ],
   "note": "Per call and over all histories of many maps. Arguments are texts in the caller's own storage; Map_AddOrUpdate_own_value_is_UB shows that passing a pointer into the same map is undefined behaviour."
  },
  {
   "property": "C09",
   "status": "proved",
   "theorems": [
    "Verif.Map.Map_history",
    "Verif.Map.Map_no_leak",
    "Verif.Map.Map_Destroy_spec",
    "Verif.Map.Map_Clone_spec",
    "Verif.Map.Map_Add_spec",
    "Verif.Map.Map_AddOrUpdate_spec"
   ],
   "note": "For every allocator behaviour: MAP_ERROR leaves the pairs unchanged, is returned only if the allocator refused a request (or the request exceeds the modelled largest object size), and memory in use is exactly that of the live maps."
  },
  {
   "property": "C10",
   "status": "partial",
   "theorems": [
    "Verif.Map.Map_filter_partial",
    "Verif.Map.Map_filter_lost_by_delete",
    "Verif.Map.Map_filter_lost_by_clone",
    "Verif.Map.Map_filter_lost_by_failure"
   ],
   "note": "Proved: as long as a map has a filter all its pairs are accepted ones. The full property is false of the code: deleting the last pair, cloning an empty map, or a failed first insertion drops the filter (three witnesses)."
  },
  {
   "property": "C11",
   "status": "proved",
   "theorems": [
    "Verif.Map.Map_Clone_spec",
    "Verif.Map.Map_history"
   ],
   "note": "The clone has the same pairs in the same order and is a separate object (separating conjunction); Map_history covers all later operations on both."
  },
  {
   "property": "C12",
   "status": "proved",
   "theorems": [
    "Verif.Map.Map_ToJSON_spec",
    "Verif.Json.JObject.unique",
    "Verif.Json.JMembers.unique"
   ],
   "note": "Grammar JObject is independent of the code and unambiguous. Failure only for NULL handle, non-7-bit text, refused allocation or a text larger than the modelled largest object."
  },
  {
   "property": "C13",
   "status": "proved",
   "theorems": [
    "Verif.Const.ConstMap_Create_spec",
    "Verif.Const.ConstMap_Clone_spec",
    "Verif.Const.ConstMap_Destroy_spec",
    "Verif.Const.ConstMap_null",
    "Verif.Const.ConstMap_CloneWriteable_spec",
    "Verif.Const.ConstMap_ContainsKey_spec",
    "Verif.Const.ConstMap_ContainsValue_spec",
    "Verif.Const.ConstMap_GetValue_spec",
    "Verif.Const.ConstMap_GetInternals_spec",
    "Verif.Const.ConstMap_history",
    "Verif.Const.ConstMap_no_leak"
   ],
   "note": "Per call and over all histories mixing map calls and const map calls (fewer than 2^32 references)."
  },
  {
   "property": "C14",
   "status": "proved",
   "theorems": [
    "Verif.Const.CONSTBUFFER_Create_spec",
    "Verif.Const.CONSTBUFFER_Create_null",
    "Verif.Const.CONSTBUFFER_CreateFromBuffer_spec",
    "Verif.Const.CONSTBUFFER_Clone_spec",
    "Verif.Const.CONSTBUFFER_Destroy_spec",
    "Verif.Const.CONSTBUFFER_null",
    "Verif.Const.GetContent_spec",
    "Verif.Const.CONSTBUFFER_history",
    "Verif.Const.CONSTBUFFER_no_leak",
    "Verif.Const.CONSTBUFFER_threads",
    "Verif.Const.destroyP_run",
    "Verif.Const.cloneP_run"
   ],
   "note": "Histories of one client on many buffers, and every schedule of any number of threads sharing one buffer (each memory access one atomic step, sequentially consistent memory). destroyP_run/cloneP_run relate the thread programs to the sequential model."
  },
  {
   "property": "C15",
   "status": "proved",
   "theorems": [
    "Verif.List.list_create_spec",
    "Verif.List.list_add_spec",
    "Verif.List.list_remove_spec",
    "Verif.List.list_get_head_item_spec",
    "Verif.List.list_get_next_item_spec",
    "Verif.List.list_item_get_value_spec",
    "Verif.List.item_null",
    "Verif.List.list_find_spec",
    "Verif.List.list_find_null",
    "Verif.List.traverse_spec",
    "Verif.List.list_history"
   ],
   "note": "Per call (any client match function that leaves the list alone) and over all histories of many lists; loops are proved to end."
  },
  {
   "property": "C16",
   "status": "proved",
   "theorems": [
    "Verif.List.list_destroy_spec",
    "Verif.List.list_history",
    "Verif.List.list_no_leak"
   ],
   "note": "Every node and list block is freed exactly once, for every history and allocator."
  },
  {
   "property": "C17",
   "status": "proved",
   "theorems": [
    "Verif.DList.DList_InitializeListHead_spec",
    "Verif.DList.DList_IsListEmpty_spec",
    "Verif.DList.DList_RemoveEntryList_spec",
    "Verif.DList.DList_RemoveHeadList_spec",
    "Verif.DList.DList_RemoveHeadList_empty",
    "Verif.DList.DList_InsertTailList_spec",
    "Verif.DList.DList_InsertHeadList_spec",
    "Verif.DList.DList_AppendTailList_spec",
    "Verif.DList.forward_spec",
    "Verif.DList.backward_spec",
    "Verif.DList.DL_rotate",
    "Verif.DList.DList_history"
   ],
   "note": "All list lengths and positions; every legal history over any number of lists; entries carry arbitrary client data that is untouched. Entry embedded at offset 0 of its block."
  },
  {
   "property": "C18",
   "status": "partial",
   "theorems": [
    "Verif.Vec.VECTOR_create_spec",
    "Verif.Vec.VECTOR_push_back_spec",
    "Verif.Vec.VECTOR_erase_spec_partial",
    "Verif.Vec.VECTOR_clear_spec",
    "Verif.Vec.VECTOR_size_spec",
    "Verif.Vec.VECTOR_element_spec_partial",
    "Verif.Vec.VECTOR_front_spec",
    "Verif.Vec.VECTOR_back_spec_partial",
    "Verif.Vec.readAt_spec",
    "Verif.Vec.VECTOR_find_if_spec",
    "Verif.Vec.VECTOR_destroy_spec",
    "Verif.Vec.VECTOR_null",
    "Verif.Vec.VECTOR_history_partial",
    "Verif.Vec.VECTOR_no_leak_partial",
    "Verif.Vec.VECTOR_erase_loses_all",
    "Verif.Vec.VECTOR_size0_is_UB"
   ],
   "note": "Missing: element size 0 (second push is realloc(p,0), VECTOR_size0_is_UB) and VECTOR_erase when the allocator refuses to shrink (code loses the storage, VECTOR_erase_loses_all)."
  },
  {
   "property": "C19",
   "status": "partial",
   "theorems": [
    "Verif.Vec.VECTOR_element_spec_partial",
    "Verif.Vec.VECTOR_front_spec",
    "Verif.Vec.VECTOR_back_spec_partial",
    "Verif.Vec.VECTOR_element_at_count",
    "Verif.Vec.VECTOR_back_empty"
   ],
   "note": "False of the code at index == count and for VECTOR_back of an empty vector (witnesses); proved for every other index, for VECTOR_front, and for VECTOR_back of nonempty vectors."
  },
  {
   "property": "C20",
   "status": "proved",
   "theorems": [
    "Verif.Base64.Base64_Encode_Bytes_spec",
    "Verif.Base64.Base64_Encode_spec",
    "Verif.Base64.Base64_Encode_Internal_spec",
    "Verif.Base64.encodeLoop_spec",
    "Verif.Base64.rfc4648_length"
   ],
   "note": "Against an independent RFC 4648 encoder (its test vectors are checked). encodeLoop_spec: the allocated block is exactly filled. Base64_Encode's input is a BUFFER whose storage is initialised."
  },
  {
   "property": "C21",
   "status": "proved",
   "theorems": [
    "Verif.Base64.roundtrip_spec",
    "Verif.Base64.Base64_Decoder_wellformed",
    "Verif.Base64.Decodes_rfc4648",
    "Verif.Base64.Decodes.unique"
   ],
   "note": "roundtrip_spec runs encode, c_str and decode on any bytes; Base64_Decoder_wellformed covers every well formed base64 text."
  },
  {
   "property": "C22",
   "status": "partial",
   "theorems": [
    "Verif.Base64.Base64_Decoder_spec_partial",
    "Verif.Base64.Base64_Decoder_wellformed",
    "Verif.Base64.decoder_overflows",
    "Verif.Base64.decoder_uninitialised",
    "Verif.Base64.not_all_fit"
   ],
   "note": "False of the code: 'AAAAAA' and 'AAA==' make the decoder write past its buffer, 'AAAA====' returns an uninitialised byte (witnesses). Proved: full functional result for every string for which the allotted size suffices, in particular all well formed texts (where every byte is written)."
  },
  {
   "property": "C23",
   "status": "proved",
   "theorems": [
    "Verif.Url.URL_Encode_spec",
    "Verif.Url.URL_EncodeString_spec",
    "Verif.Url.Encoded_Str",
    "Verif.Url.encodeLoop_spec",
    "Verif.Url.decode_encode",
    "Verif.Url.encode_injective",
    "Verif.Url.encode_chars"
   ],
   "note": "Against an independent percent-encoder; the result block is exactly encoding + NUL (Encoded). Percent-decoding gives the UTF-8 form of the Latin-1 input; injective; output alphabet."
  },
  {
   "property": "C54",
   "status": "partial",
   "theorems": [
    "Verif.Url.URL_Encode_spec",
    "Verif.Url.URL_Encode_no_leak_partial",
    "Verif.Url.URL_Encode_leaks"
   ],
   "note": "False of the code: the encoded text is leaked when STRING_new_with_memory fails (URL_Encode_leaks). URL_Encode_spec says exactly what is lost and when; nothing is lost if no allocation is refused."
  },
  {
   "property": "C24",
   "status": "proved",
   "theorems": [
    "Verif.Tok.requests_spec",
    "Verif.Tok.tokenize_spec",
    "Verif.Tok.create_from_char_spec",
    "Verif.Tok.create_spec",
    "Verif.Tok.destroy_spec",
    "Verif.Tok.destroy_null",
    "Verif.Tok.get_next_token_spec",
    "Verif.Tok.get_next_token_null",
    "Verif.Tok.IsRuns.unique",
    "Verif.Tok.IsRuns.exists"
   ],
   "note": "Any text, one-character delimiter, any number of calls; IsRuns is an independent and functional specification. A refused allocation makes a call fail without losing a token."
  },
  {
   "property": "C25",
   "status": "partial",
   "theorems": [
    "Verif.Tok.tokenize_delimiters_partial",
    "Verif.Tok.get_next_token_spec",
    "Verif.Tok.token_end_wrong"
   ],
   "note": "False of the code: 'a;b,c' with delimiters ',;' gives the token 'a;b' (token_end_wrong). Proved for all texts containing at most one kind of the delimiters; get_next_token_spec gives the exact behaviour for all texts."
  },
  {
   "property": "C28",
   "status": "proved",
   "theorems": [
    "Verif.Headers.HTTPHeaders_history",
    "Verif.Headers.HTTPHeaders_no_leak",
    "Verif.Headers.store_header_spec",
    "Verif.Headers.HTTPHeaders_FindHeaderValue_spec",
    "Verif.Headers.HTTPHeaders_GetHeaderCount_spec",
    "Verif.Headers.HTTPHeaders_Alloc_spec",
    "Verif.Headers.HTTPHeaders_Clone_spec",
    "Verif.Headers.HTTPHeaders_Free_spec",
    "Verif.Headers.find_stored_self",
    "Verif.Headers.find_stored_other",
    "Verif.Headers.length_stored",
    "Verif.Headers.HTTPHeaders_Replace_own_value_is_UB"
   ],
   "note": "All histories on any number of header sets. Argument texts must not point into the same header set (HTTPHeaders_Replace_own_value_is_UB shows why)."
  },
  {
   "property": "C29",
   "status": "proved",
   "theorems": [
    "Verif.Headers.HTTPHeaders_GetHeader_spec",
    "Verif.Headers.HTTPHeaders_history"
   ],
   "note": "GotHeader: exact block 'name: value' NUL, fresh, for index < count; INVALID_ARG otherwise; ERROR only when the allocation is refused."
  },
  {
   "property": "C30",
   "status": "partial",
   "theorems": [
    "Verif.Gballoc.gballoc_history",
    "Verif.Gballoc.exec_spec",
    "Verif.Gballoc.gballoc_malloc_spec",
    "Verif.Gballoc.gballoc_calloc_spec",
    "Verif.Gballoc.gballoc_realloc_spec",
    "Verif.Gballoc.gballoc_free_spec",
    "Verif.Gballoc.gballoc_init_spec",
    "Verif.Gballoc.gballoc_deinit_spec",
    "Verif.Gballoc.gballoc_getCur_spec",
    "Verif.Gballoc.current_is_live",
    "Verif.Gballoc.demo_safe",
    "Verif.Gballoc.gballoc_deinit_live"
   ],
   "note": "False of the code when gballoc_deinit is called with tracked blocks live and the module is initialised again: stale records make the reported usage wrap (gballoc_deinit_live). Proved for every client (adaptive, any allocator) that deinitialises only with nothing tracked. Usage is a size_t, i.e. modulo 2^64. realloc(p,0) is undefined behaviour in C23 and excluded."
  },
  {
   "property": "C31",
   "status": "partial",
   "theorems": [
    "Verif.Gballoc.peak_is_high_water",
    "Verif.Gballoc.step_peak",
    "Verif.Gballoc.after_init",
    "Verif.Gballoc.maximum_is_peak",
    "Verif.Gballoc.gballoc_getMax_spec",
    "Verif.Gballoc.gballoc_history"
   ],
   "note": "Same client condition as C30: the reported maximum is the maximum of the usage over the history since init, hence monotone and never below the current usage."
  },
  {
   "property": "C32",
   "status": "partial",
   "theorems": [
    "Verif.Gballoc.gballoc_threads_partial",
    "Verif.Gballoc.threads_guarded",
    "Verif.Gballoc.guard_only_stops",
    "Verif.Gballoc.gballoc_threads_nofree",
    "Verif.Gballoc.gballoc_free_race",
    "Verif.Gballoc.gballoc_lost_record"
   ],
   "note": "False of the code: gballoc_free reads the list head before taking the lock (use after free witness gballoc_free_race; lost record witness gballoc_lost_record). Proved: linearizability for all schedules in which no other thread changes the head between that read and the lock (in particular all programs that only allocate)."
  },
  {
   "property": "C33",
   "status": "proved",
   "theorems": [
    "Verif.Sha.digest",
    "Verif.Sha.digest_bits",
    "Verif.Sha.too_long",
    "Verif.Sha.history",
    "Verif.Sha.sha1_abc",
    "Verif.Sha.sha256_abc",
    "Verif.Sha.Fips.root_spec",
    "Verif.Sha.Fips.zeros_spec",
    "Verif.Hmac.USHA_history",
    "Verif.Hmac.USHA_sizes",
    "Verif.Hmac.USHAReset_bad"
   ],
   "note": "Against a bit-level FIPS 180-2 specification (constants derived from the roots of the primes). Any context contents, any splitting. Beyond the limit of the standard Result returns 1. The generic interface of usha.c (selected by whichSha) behaves as the selected hash over every history."
  },
  {
   "property": "C34",
   "status": "proved",
   "theorems": [
    "Verif.Sha.split",
    "Verif.Sha.digest"
   ],
   "note": "Any two splittings of any message, even of messages beyond the limit."
  },
  {
   "property": "C35",
   "status": "proved",
   "theorems": [
    "Verif.Sha.misuse",
    "Verif.Sha.result_twice",
    "Verif.Sha.reset_recovers",
    "Verif.Sha.history",
    "Verif.Sha.misuse_case"
   ],
   "note": "history: every sequence of Reset/Input/FinalBits/Result (also with a NULL array) returns exactly the codes and digests of the specification."
  },
  {
   "property": "C36",
   "status": "partial",
   "theorems": [
    "Verif.Sha.threads_partial",
    "Verif.Sha.threadOf_run",
    "Verif.Sha.race",
    "Verif.Sha.race_result",
    "Verif.Sha.race_fixed"
   ],
   "note": "False of the code: the static addTemp is shared; a schedule of two threads gives a wrong digest with all calls successful (race). Proved for any number of threads and every schedule in which the AddLength macro is not interrupted."
  },
  {
   "property": "C37",
   "status": "proved",
   "theorems": [
    "Verif.Hmac.hmac_rfc2104",
    "Verif.Hmac.hmac_parts",
    "Verif.Hmac.rfc4231_2"
   ],
   "note": "All keys shorter than 2^31 bytes (the range of key_len), all texts whose length is an unsigned int, all five hashes, arbitrary contents of the uninitialised contexts; hmac_parts: any splitting."
  },
  {
   "property": "C38",
   "status": "partial",
   "theorems": [
    "Verif.Hmac.HMACSHA256_ComputeHash_partial",
    "Verif.Hmac.HMACSHA256_ComputeHash_spec",
    "Verif.Hmac.HMACSHA256_ComputeHash_null",
    "Verif.Hmac.payload_truncated",
    "Verif.Hmac.key_ignored",
    "Verif.Hmac.nonempty_buffer",
    "Verif.Hmac.rfc4231_1"
   ],
   "note": "False of the code for lengths that do not fit an int/unsigned (payload_truncated, key_ignored). HMACSHA256_ComputeHash_spec gives the exact result for all lengths and all previous buffer contents."
  },
  {
   "property": "C39",
   "status": "partial",
   "theorems": [
    "Verif.Sas.SASToken_Create_partial",
    "Verif.Sas.SASToken_Create_spec",
    "Verif.Sas.SASToken_Create_leaks",
    "Verif.Sas.demo_token"
   ],
   "note": "False of the code: the percent-encoded signature is leaked when the last allocation in URL_Encode is refused (SASToken_Create_leaks); for scopes near 2^32 bytes the signed text is truncated (sigX in SASToken_Create_spec). SASToken_Create_spec: exact result, all allocation outcomes (at most one block lost), all sizes, handles may coincide, for keys that are base64 texts; SASToken_Create_partial: the documented token, nothing lost if no request is refused."
  },
  {
   "property": "C46",
   "status": "proved",
   "theorems": [
    "Verif.Xio.forwards",
    "Verif.Xio.forwards_run",
    "Verif.Xio.exec_spec",
    "Verif.Xio.xio_create_spec",
    "Verif.Xio.xio_destroy_spec",
    "Verif.Xio.xio_open_spec",
    "Verif.Xio.xio_close_spec",
    "Verif.Xio.xio_send_spec",
    "Verif.Xio.xio_dowork_spec",
    "Verif.Xio.xio_setoption_spec",
    "Verif.Xio.ledger",
    "Verif.Xio.demo_honours"
   ],
   "note": "Any set of implementations meeting the contract Honours (arbitrary results and memory), any descriptions, any history on any number of handles, any allocator. ledger: concrete objects created = destroyed + still held. Assumed: an implementation does not re-enter the same xio handle while it runs."
  },
  {
   "property": "C50",
   "status": "proved",
   "theorems": [
    "Verif.Cond.Condition_Wait_spec",
    "Verif.Cond.Condition_Post_spec",
    "Verif.Cond.Condition_Deinit_spec",
    "Verif.Cond.deadline",
    "Verif.Cond.anyOs_honours"
   ],
   "note": "Operating system functions are parameters with the contract Honours (any results); the deadline is exact and normalised for every clock value less than 2^62 s and every int timeout; signed overflow is UB in the model."
  },
  {
   "property": "C51",
   "status": "proved",
   "theorems": [
    "Verif.Thr.history",
    "Verif.Thr.no_leak",
    "Verif.Thr.create_spec",
    "Verif.Thr.join_spec",
    "Verif.Thr.start_spec",
    "Verif.Thr.finish_spec",
    "Verif.Thr.sleep_exact"
   ],
   "note": "Every history of Create/Join calls interleaved with scheduler steps (thread starts, thread ends), any error codes, any allocator: no use after free of the instance, functions called with the given argument, result returned exactly, handle released once. Assumed: pthread_join fails only for threads that have started."
  },
  {
   "property": "C52",
   "status": "partial",
   "theorems": [
    "Verif.Tick.history_partial",
    "Verif.Tick.exec_spec",
    "Verif.Tick.tickcounter_create_spec",
    "Verif.Tick.tickcounter_destroy_spec",
    "Verif.Tick.tickcounter_get_current_ms_spec",
    "Verif.Tick.monotone",
    "Verif.Tick.elapsed",
    "Verif.Tick.clock_back_ub",
    "Verif.Tick.demo_honours",
    "Verif.Tick.roundNat_nearest"
   ],
   "note": "False of the code when the (wall) clock goes back below the creation time: undefined conversion (clock_back_ub). Proved for every history under a clock that does not go back and stays below 9007199254740 s (exactness of double)."
  },
  {
   "property": "C53",
   "status": "proved",
   "theorems": [
    "Verif.Uid.UniqueId_Generate_spec",
    "Verif.Uid.UniqueId_Generate_null",
    "Verif.Uid.text_injective",
    "Verif.Uid.text_layout",
    "Verif.Uid.demo_honours"
   ],
   "note": "Any random source, any buffer length, the rest of the buffer untouched; layout and injectivity of the text."
  },
  {
   "property": "C55",
   "status": "partial",
   "theorems": [
    "Verif.Uid.variant_digit_partial",
    "Verif.Uid.version_digit_arbitrary",
    "Verif.Uid.UniqueId_Generate_spec"
   ],
   "note": "False of the code: the version bits are put into byte 7, so the digit 4 is at position 17 and the version digit at 14 is arbitrary (version_digit_arbitrary). The variant digit is correct."
  },
  {
   "property": "C56",
   "status": "partial",
   "theorems": [
    "Verif.Cond.Condition_Init_partial",
    "Verif.Cond.Condition_Init_ignores_failure",
    "Verif.Cond.Condition_Init_spec"
   ],
   "note": "False of the code: the result of pthread_cond_init is ignored (Condition_Init_ignores_failure). Condition_Init_spec gives the exact outcome in all cases."
  },
  {
   "property": "C47",
   "status": "partial",
   "theorems": [
    "Verif.Sock.in_order_partial",
    "Verif.Sock.ledger",
    "Verif.Sock.histories",
    "Verif.Sock.histories_run",
    "Verif.Sock.duplicates_bytes",
    "Verif.Sock.skips_bytes",
    "Verif.Sock.refused_bytes",
    "Verif.Sock.wrong_connection"
   ],
   "note": "The full property is false of the code: duplicates_bytes, skips_bytes, refused_bytes and wrong_connection (the queue survives close) are runs of the model that break it. in_order_partial proves it for histories without these three events; ledger describes what happens to each buffer in every history."
  },
  {
   "property": "C48",
   "status": "proved",
   "theorems": [
    "Verif.Sock.completes_once",
    "Verif.Sock.completed_after_bytes",
    "Verif.Sock.refused_unless_open",
    "Verif.Sock.idle_unless_open",
    "Verif.Sock.ledger",
    "Verif.Sock.histories",
    "Verif.Sock.histories_run"
   ],
   "note": ""
  },
  {
   "property": "C57",
   "status": "partial",
   "theorems": [
    "Verif.Sock.close_reports_partial",
    "Verif.Sock.close_of_closed",
    "Verif.Sock.histories",
    "Verif.Sock.histories_run"
   ],
   "note": "Closing an open handle is right. Closing a handle that is not open reports success although the callback is never called (line 357 overwrites the result): close_of_closed."
  },
  {
   "property": "C58",
   "status": "proved",
   "theorems": [
    "Verif.Sock.descriptors",
    "Verif.Sock.all_closed",
    "Verif.Sock.address_lists",
    "Verif.Sock.histories",
    "Verif.Sock.histories_run"
   ],
   "note": ""
  },
  {
   "property": "C40",
   "status": "proved",
   "theorems": [
    "Verif.Ex.attempts_bounded",
    "Verif.Ex.fresh_once",
    "Verif.Ex.histories",
    "Verif.Ex.histories_run",
    "Verif.Ex.bounds_reached"
   ],
   "note": "The bounds are 1, 2 and 3 and are reached (bounds_reached). Every history runs to its end (histories_run), so each call returns."
  },
  {
   "property": "C41",
   "status": "proved",
   "theorems": [
    "Verif.Ex.protocol",
    "Verif.Ex.protocol_always",
    "Verif.Ex.balance",
    "Verif.Ex.all_released",
    "Verif.Ex.histories",
    "Verif.Ex.histories_run"
   ],
   "note": ""
  },
  {
   "property": "C42",
   "status": "proved",
   "theorems": [
    "Verif.Ex.ok_iff",
    "Verif.Ex.recovery_failed",
    "Verif.Ex.ok_connected",
    "Verif.Ex.refused",
    "Verif.Ex.histories",
    "Verif.Ex.histories_run"
   ],
   "note": ""
  },
  {
   "property": "C43",
   "status": "proved",
   "theorems": [
    "Verif.Ex.options_applied",
    "Verif.Ex.ok_saves",
    "Verif.Ex.saved_names",
    "Verif.Ex.saved_value",
    "Verif.Ex.histories",
    "Verif.Ex.histories_run"
   ],
   "note": "An option whose value is refused by an open connection is nevertheless saved and applied to later connections (Entry.saves)."
  },
  {
   "property": "C44",
   "status": "proved",
   "theorems": [
    "Verif.Ex.what_is_sent",
    "Verif.Ex.caller_objects",
    "Verif.Ex.nothing_left",
    "Verif.Ex.histories",
    "Verif.Ex.histories_run",
    "Verif.Ex.HTTPAPIEX_ExecuteRequest_spec"
   ],
   "note": "Leading white space of the host name is dropped by the header functions. Header names are compared exactly."
  },
  {
   "property": "C45",
   "status": "partial",
   "theorems": [
    "Verif.Exs.histories_partial",
    "Verif.Exs.run_partial",
    "Verif.Exs.HTTPAPIEX_SAS_ExecuteRequest_partial",
    "Verif.Exs.refresh_spec",
    "Verif.Exs.untouched",
    "Verif.Exs.only_authorization",
    "Verif.Exs.refreshed",
    "Verif.Exs.HTTPAPIEX_SAS_Create_spec",
    "Verif.Exs.HTTPAPIEX_SAS_Destroy_spec",
    "Verif.Exs.too_early",
    "Verif.Exs.demo_refreshed"
   ],
   "note": "Any transport and clock meeting their contracts, any history on any number of handles of both kinds, any allocator. False of the code for a clock more than an hour before 1970 (too_early: undefined conversion). Missing: keys that are not base64 texts (the decoder is unsafe on them, C22); if an allocation is refused a block may be lost (C39)."
  },
  {
   "property": "C49",
   "status": "partial",
   "theorems": [
    "Verif.Tls.ok_justified",
    "Verif.Tls.ok_once",
    "Verif.Tls.ok_reported",
    "Verif.Tls.failure_reported",
    "Verif.Tls.send_refused",
    "Verif.Tls.send_accepted",
    "Verif.Tls.delivered_partial",
    "Verif.Tls.no_undefined_behaviour",
    "Verif.Tls.sound",
    "Verif.Tls.life_reachable",
    "Verif.Tls.life_told",
    "Verif.Tls.life_phases",
    "Verif.Tls.late_delivery",
    "Verif.Tls.two_oks",
    "Verif.Tls.destroy_in_callback"
   ],
   "note": "All plays of the code against any environment of the policy std, with calls from inside callbacks to any depth. False of the code only in one respect: if the user closes inside on_bytes_received, bytes already decrypted are still delivered (late_delivery); delivered_partial says exactly when. two_oks and destroy_in_callback show that the assumptions of the policy are needed."
  },
  {
   "property": "C59",
   "status": "proved",
   "theorems": [
    "Verif.Tls.ciphertext_only",
    "Verif.Tls.received",
    "Verif.Tls.written",
    "Verif.Tls.delivered_partial",
    "Verif.Tls.all_delivered",
    "Verif.Tls.reads_on",
    "Verif.Tls.send_result",
    "Verif.Tls.send_accepted",
    "Verif.Tls.life_reachable"
   ],
   "note": "delivered_partial is partial only as to the state in which bytes are delivered (C49); as to which bytes, it is complete."
  },
  {
   "property": "C60",
   "status": "partial",
   "theorems": [
    "Verif.Tls.ledger",
    "Verif.Tls.all_released_partial",
    "Verif.Tls.create_holds",
    "Verif.Tls.destroy_releases",
    "Verif.Tls.setoption_holds",
    "Verif.Tls.create_leaks",
    "Verif.Tls.option_leaks"
   ],
   "note": "False of the code: tlsio_openssl_create leaks the lower IO if the SSL objects cannot be made (create_leaks), and each successful setting of TrustedCerts leaks an X509 (option_leaks). ledger is exact for all histories: held = owned + these two leaks."
  },
  {
   "property": "C61",
   "status": "partial",
   "theorems": [
    "Verif.Tls.open_refused",
    "Verif.Tls.open_result",
    "Verif.Tls.ok_once",
    "Verif.Tls.ok_justified",
    "Verif.Tls.failure_reported",
    "Verif.Tls.close_refused",
    "Verif.Tls.close_reported",
    "Verif.Tls.close_once",
    "Verif.Tls.close_answered",
    "Verif.Tls.reopen_gives_up",
    "Verif.Tls.answered_twice",
    "Verif.Tls.failed_close_stuck"
   ],
   "note": "False of the code in three respects: an open can be answered with success and then with failure or vice versa (answered_twice), a close whose xio_close fails leaves the TLS IO in the closing state for good (failed_close_stuck), and a second open after a close fails as the SSL object is not renewed (reopen_gives_up). The remaining parts are proved for all plays."
  },
  {
   "property": "C62",
   "status": "proved",
   "theorems": [
    "Verif.Wolf.fetched_in_order",
    "Verif.Wolf.stream_at",
    "Verif.Wolf.recv_gets",
    "Verif.Wolf.recv_result",
    "Verif.Wolf.delivery_kept",
    "Verif.Wolf.loss_reported",
    "Verif.Wolf.no_undefined_behaviour",
    "Verif.Wolf.sound",
    "Verif.Wolf.life_reachable",
    "Verif.Wolf.life_told"
   ],
   "note": "Over all plays of the standard environment: the lower IO does not deliver empty chunks (socketio does not; otherwise empty_chunk in Demo.lean is undefined behaviour), no destroy inside a callback."
  },
  {
   "property": "C63",
   "status": "proved",
   "theorems": [
    "Verif.Wolf.send_refused",
    "Verif.Wolf.written",
    "Verif.Wolf.send_result",
    "Verif.Wolf.ciphertext_only",
    "Verif.Wolf.ciphertext_all",
    "Verif.Wolf.ciphertext_result",
    "Verif.Wolf.delivered",
    "Verif.Wolf.all_delivered",
    "Verif.Wolf.reads_on",
    "Verif.Wolf.life_reachable"
   ],
   "note": "Over all plays. Bytes decrypted while no receive callback is set are dropped, as the code intends."
  },
  {
   "property": "C64",
   "status": "partial",
   "theorems": [
    "Verif.Wolf.ok_justified",
    "Verif.Wolf.ok_once_partial",
    "Verif.Wolf.ok_reported",
    "Verif.Wolf.failure_justified",
    "Verif.Wolf.failure_reported",
    "Verif.Wolf.error_reported",
    "Verif.Wolf.error_justified",
    "Verif.Wolf.open_refused",
    "Verif.Wolf.open_result",
    "Verif.Wolf.connect_result",
    "Verif.Wolf.close_result",
    "Verif.Wolf.close_reported",
    "Verif.Wolf.close_answered",
    "Verif.Wolf.two_oks",
    "Verif.Wolf.never_reopens",
    "Verif.Wolf.close_answered_twice",
    "Verif.Wolf.failed_handshake_stuck",
    "Verif.Wolf.keeps_polling",
    "Verif.Wolf.life_phases"
   ],
   "note": "False of the code in parts, with plays as witnesses: success twice for one open (two_oks), a closed TLS IO can never be opened again (never_reopens), a close can be answered twice (close_answered_twice), a failed handshake leaves it stuck (failed_handshake_stuck). ok_once_partial: between two successes the lower IO was opened, or said so, once more."
  },
  {
   "property": "C65",
   "status": "partial",
   "theorems": [
    "Verif.Wolf.ledger",
    "Verif.Wolf.blocks_held",
    "Verif.Wolf.all_released_partial",
    "Verif.Wolf.create_holds",
    "Verif.Wolf.create_wired",
    "Verif.Wolf.destroy_releases",
    "Verif.Wolf.life_blocks",
    "Verif.Wolf.create_leaks",
    "Verif.Wolf.destroy_in_callback"
   ],
   "note": "False of the code: tlsio_wolfssl_create leaks the lower IO when wolfSSL_new fails (create_leaks). Everything else is proved over all plays."
  },
  {
   "property": "C66",
   "status": "partial",
   "theorems": [
    "Verif.Curl.request_faithful",
    "Verif.Curl.request_once",
    "Verif.Curl.verb_partial",
    "Verif.Curl.headers_partial",
    "Verif.Curl.request_recorded",
    "Verif.Curl.get_becomes_post",
    "Verif.Curl.get_becomes_post_run",
    "Verif.Curl.blank_dropped",
    "Verif.Curl.sample_recorded"
   ],
   "note": "False of the code: a GET with content is sent as a POST in every history (get_becomes_post), and a header with a blank value is not sent (blank_dropped: libcurl takes `Name: ` as a request to remove the header). Everything else (URL, content, other methods and headers, options) is proved over all histories."
  },
  {
   "property": "C67",
   "status": "partial",
   "theorems": [
    "Verif.Curl.response_ok",
    "Verif.Curl.response_failed",
    "Verif.Curl.absorbs_merged",
    "Verif.Curl.stale_content",
    "Verif.Curl.masked_failure",
    "Verif.Curl.released_twice",
    "Verif.Curl.header_lost"
   ],
   "note": "False of the code: an empty body leaves old content in the buffer (stale_content); a refused allocation is masked by HTTPAPI_OK (masked_failure), loses a header silently (header_lost), or makes the code release the received body twice (released_twice; excluded by the assumption Room on libcurl). Everything else is proved over all histories."
  },
  {
   "property": "C68",
   "status": "proved",
   "theorems": [
    "Verif.Curl.option_result",
    "Verif.Curl.clone_result",
    "Verif.Curl.request_faithful"
   ],
   "note": ""
  },
  {
   "property": "C69",
   "status": "proved",
   "theorems": [
    "Verif.Curl.global_calls",
    "Verif.Curl.users_balance"
   ],
   "note": ""
  },
  {
   "property": "C70",
   "status": "partial",
   "theorems": [
    "Verif.Curl.protocol",
    "Verif.Curl.protocol_always",
    "Verif.Curl.balance",
    "Verif.Curl.all_closed",
    "Verif.Curl.none_lost",
    "Verif.Curl.nothing_left",
    "Verif.Curl.nothing_left_partial",
    "Verif.Curl.histories_run",
    "Verif.Curl.null_handle"
   ],
   "note": "False of the code: if memory for the host name is refused, HTTPAPI_CreateConnection returns a handle that is no connection, whose memory cannot be released (null_handle). The client of the histories recognises such handles; everything else is proved."
  },
  {
   "property": "C71",
   "status": "proved",
   "theorems": [
    "Verif.Sync.mutual_exclusion",
    "Verif.Sync.held_live",
    "Verif.Sync.defined",
    "Verif.Sync.handle_new",
    "Verif.Sync.lock_succeeds",
    "Verif.Sync.truthful",
    "Verif.Sync.ledger",
    "Verif.Sync.story_posted"
   ],
   "note": "lock_pthreads.c; for callers that observe Sync.Allowed."
  },
  {
   "property": "C72",
   "status": "proved",
   "theorems": [
    "Verif.Sync.no_lost_wakeup",
    "Verif.Sync.woken_returns",
    "Verif.Sync.wait_result",
    "Verif.Sync.mutual_exclusion",
    "Verif.Sync.defined",
    "Verif.Sync.truthful",
    "Verif.Sync.story_posted"
   ],
   "note": "condition_pthreads.c together with lock_pthreads.c; pthread_cond_init is assumed to succeed (C56)."
  },
  {
   "property": "C73",
   "status": "proved",
   "theorems": [
    "Verif.Sync.c11_faithful",
    "Verif.Sync.win32_faithful",
    "Verif.Sync.mbed_faithful",
    "Verif.Sync.port_mutual_exclusion",
    "Verif.Sync.port_defined",
    "Verif.Sync.port_ledger",
    "Verif.Sync.port_handle_new",
    "Verif.Sync.port_truthful",
    "Verif.Sync.port_no_lost_wakeup",
    "Verif.Sync.port_lock_succeeds",
    "Verif.Sync.c11_locks",
    "Verif.Sync.win32_locks",
    "Verif.Sync.mbed_locks"
   ],
   "note": "Other lock and condition ports simulated by the pthreads machine of C71/C72."
  },
  {
   "property": "C74",
   "status": "partial",
   "theorems": [
    "Verif.Tick.Win32.reported_partial",
    "Verif.Tick.Win32.elapsed_partial",
    "Verif.Tick.Win32.get_exact",
    "Verif.Tick.Win32.falls_behind",
    "Verif.Tick.Win32.overflow_ub"
   ],
   "note": "Exact up to one microsecond lost per call; the full property is false (falls_behind, overflow_ub)."
  },
  {
   "property": "C75",
   "status": "partial",
   "theorems": [
    "Verif.Thr.Win32.history_partial",
    "Verif.Thr.Win32.history_refused",
    "Verif.Thr.Win32.refused_is_ok"
   ],
   "note": "Full property false: a refused CreateThread is reported as THREADAPI_OK (refused_is_ok)."
  },
  {
   "property": "C76",
   "status": "proved",
   "theorems": [
    "Verif.Thr.C11.history",
    "Verif.Thr.C11.no_leak"
   ],
   "note": "threadapi_c11.c, all histories and schedules."
  },
  {
   "property": "C77",
   "status": "partial",
   "theorems": [
    "Verif.Thr.Mbed.called_right",
    "Verif.Thr.Mbed.join_truthful_partial",
    "Verif.Thr.Mbed.sleep_exact",
    "Verif.Thr.Mbed.only_four",
    "Verif.Thr.Mbed.returned_never_joined",
    "Verif.Thr.Mbed.shared_handle",
    "Verif.Thr.Mbed.demo"
   ],
   "note": "Full property false: shared_handle, returned_never_joined, only_four."
  },
  {
   "property": "C78",
   "status": "partial",
   "theorems": [
    "Verif.Cond.C11.deadline_partial",
    "Verif.Cond.C11.early"
   ],
   "note": "Full property false: deadline up to one second early."
  },
  {
   "property": "C79",
   "status": "partial",
   "theorems": [
    "Verif.Schan.no_undefined_behaviour",
    "Verif.Schan.stream_at",
    "Verif.Schan.used_le",
    "Verif.Schan.handshake_given",
    "Verif.Schan.record_given",
    "Verif.Schan.given_length",
    "Verif.Schan.given_at_once",
    "Verif.Schan.given_after_growth",
    "Verif.Schan.asked_when_due",
    "Verif.Schan.delivery_kept",
    "Verif.Schan.sound",
    "Verif.Schan.dropped_silently",
    "Verif.Schan.stale_bytes",
    "Verif.Schan.second_record_waits",
    "Verif.Schan.early_bytes",
    "Verif.Schan.nested_bytes",
    "Verif.Schan.life_reachable",
    "Verif.Schan.life_told"
   ],
   "note": "False of the code in parts, with plays as witnesses: bytes for which there is no memory are dropped in silence (dropped_silently), a reopened TLS IO gives SSPI bytes of the old connection (stale_bytes), a complete record that came together with another waits for further bytes (second_record_waits), a delivery before the client hello uses an uninitialised number (early_bytes), one inside a delivery leads outside the block (nested_bytes). In the standard environment, without such deliveries, the stream law and freedom from undefined behaviour are proved over all plays."
  },
  {
   "property": "C80",
   "status": "partial",
   "theorems": [
    "Verif.Schan.delivered",
    "Verif.Schan.all_delivered",
    "Verif.Schan.output_fetched",
    "Verif.Schan.send_refused",
    "Verif.Schan.encrypted",
    "Verif.Schan.record_fits",
    "Verif.Schan.ciphertext_only",
    "Verif.Schan.ciphertext_all",
    "Verif.Schan.send_result",
    "Verif.Schan.empty_send",
    "Verif.Schan.altered_record_silent",
    "Verif.Schan.life_told"
   ],
   "note": "False of the code for a send of no bytes, which succeeds without any TLS IO and whose completion is never reported (empty_send). The rest is proved over all plays."
  },
  {
   "property": "C81",
   "status": "partial",
   "theorems": [
    "Verif.Schan.ok_justified",
    "Verif.Schan.ok_reported",
    "Verif.Schan.handshake_end",
    "Verif.Schan.token_sent",
    "Verif.Schan.failure_justified",
    "Verif.Schan.failure_reported",
    "Verif.Schan.never_cancelled",
    "Verif.Schan.error_reported",
    "Verif.Schan.error_justified",
    "Verif.Schan.open_refused",
    "Verif.Schan.open_result",
    "Verif.Schan.close_result",
    "Verif.Schan.close_reported",
    "Verif.Schan.close_answered",
    "Verif.Schan.failed_open_ignored",
    "Verif.Schan.hello_failure_silent",
    "Verif.Schan.handshake_failure_silent",
    "Verif.Schan.open_error_misreported",
    "Verif.Schan.refused_open_stuck",
    "Verif.Schan.refused_close_stuck",
    "Verif.Schan.close_forgotten",
    "Verif.Schan.life_phases"
   ],
   "note": "False of the code in parts, with plays as witnesses: the failed open of the lower IO is ignored (failed_open_ignored), several failures are reported to nobody (hello_failure_silent, handshake_failure_silent) or as an IO error (open_error_misreported), refused opens and closes leave the TLS IO stuck, a close inside the handshake is forgotten (close_forgotten). The rest is proved over all plays."
  },
  {
   "property": "C82",
   "status": "partial",
   "theorems": [
    "Verif.Schan.ledger",
    "Verif.Schan.gotten_held",
    "Verif.Schan.all_released_partial",
    "Verif.Schan.create_holds",
    "Verif.Schan.destroy_releases",
    "Verif.Schan.contexts_leak",
    "Verif.Schan.reopen_leaks",
    "Verif.Schan.destroy_in_callback",
    "Verif.Schan.life_blocks"
   ],
   "note": "False of the code: security contexts and tokens are never released (contexts_leak: no play releases one), and the credential handle of the first open is lost on the second (reopen_leaks). Everything else is proved over all plays."
  },
  {
   "property": "C83",
   "status": "partial",
   "theorems": [
    "Verif.Tick.Mbed.reported_partial",
    "Verif.Tick.Mbed.elapsed_partial",
    "Verif.Tick.Mbed.get_exact",
    "Verif.Tick.Mbed.falls_behind",
    "Verif.Tick.Mbed.gap_lost"
   ],
   "note": "Exact up to one millisecond lost per reading, for readings less than 2^32/1000 ticks apart; the full property is false (falls_behind, gap_lost)."
  },
  {
   "property": "C84",
   "status": "partial",
   "theorems": [
    "Verif.Uid.Linux.generate",
    "Verif.Uid.Linux.generate_invalid",
    "Verif.Uid.Win32.generate_partial",
    "Verif.Uid.Win32.generate_invalid",
    "Verif.Uid.demoRpc_honours",
    "Verif.Uid.Win32.overread"
   ],
   "note": "Full on Linux; on Windows only for len = 37, the property is false of larger buffers (Win32.overread)."
  },
  {
   "property": "C85",
   "status": "proved",
   "theorems": [
    "Verif.Ti.clients_balance",
    "Verif.Ti.calls_allowed",
    "Verif.Ti.histories",
    "Verif.Ti.histories_run",
    "Verif.Ti.demo_honours",
    "Verif.Ti.sample_recorded"
   ],
   "note": "Against the contract Ti.Honours of TI's HTTPCli; NULL as host name is passed on to the library (null_host) and is outside the contract."
  },
  {
   "property": "C86",
   "status": "proved",
   "theorems": [
    "Verif.Ti.request_sent",
    "Verif.Ti.headers_passed",
    "Verif.Ti.request_ok",
    "Verif.Ti.HTTPAPI_ExecuteRequest_spec"
   ],
   "note": "The fields are sent in the reverse order of the headers object, which HTTP gives the same meaning."
  },
  {
   "property": "C87",
   "status": "partial",
   "theorems": [
    "Verif.Ti.request_ok",
    "Verif.Ti.response_body_partial",
    "Verif.Ti.stale_tail",
    "Verif.Ti.masked_failure",
    "Verif.Ti.masked_refusal",
    "Verif.Ti.needs_nul"
   ],
   "note": "False of the code: failures while the body is read or stored are masked by HTTPAPI_OK (masked_failure, masked_refusal), and a buffer that was not empty gets a tail of indeterminate bytes (stale_tail). Status and headers are proved in full, the body for empty buffers without failures."
  },
  {
   "property": "C88",
   "status": "partial",
   "theorems": [
    "Verif.Ti.lost_only_if_refused",
    "Verif.Ti.nothing_lost",
    "Verif.Ti.histories_run",
    "Verif.Ti.line_lost"
   ],
   "note": "False of the code: the block of a header line that cannot be enlarged is lost (line_lost). Nothing else is lost, and nothing at all if memory is not refused."
  },
  {
   "property": "C89",
   "status": "partial",
   "theorems": [
    "Verif.Mb.HTTPAPI_ExecuteRequest_spec",
    "Verif.Mb.Says.det",
    "Verif.Mb.plain_read",
    "Verif.Mb.chunked_read",
    "Verif.Mb.bare_read",
    "Verif.Mb.histories",
    "Verif.Mb.histories_run",
    "Verif.Mb.demo_honours",
    "Verif.Mb.sample_recorded",
    "Verif.Mb.sample_recorded_chunked",
    "Verif.Mb.cut_short",
    "Verif.Mb.wild_write",
    "Verif.Mb.used_buffer",
    "Verif.Mb.refused_body",
    "Verif.Mb.no_answer",
    "Verif.Mb.header_lost",
    "Verif.Mb.body_ignored",
    "Verif.Mb.trailers_refused"
   ],
   "note": "Proved for every stream on which `Says` is defined (it covers all well-formed responses, whatever the network's pieces). False of the code elsewhere, with runs as witnesses: cut_short, wild_write, used_buffer, refused_body, no_answer, header_lost, body_ignored, trailers_refused."
  },
  {
   "property": "C90",
   "status": "partial",
   "theorems": [
    "Verif.Mb.requests_sent",
    "Verif.Mb.histories",
    "Verif.Mb.gets_matched",
    "Verif.Mb.not_sent"
   ],
   "note": "Proved over all histories for connections whose send_all reports success only if everything was sent (W); false otherwise (not_sent: the result 0 of a connection that sent nothing counts as success)."
  },
  {
   "property": "C91",
   "status": "partial",
   "theorems": [
    "Verif.Mb.answers_matched",
    "Verif.Mb.conversation",
    "Verif.Mb.Says.det",
    "Verif.Mb.gets_matched",
    "Verif.Mb.leftover"
   ],
   "note": "Proved for peers that send the k-th response when they have received the k-th request, and whose responses are consumed to the end; after a malformed response the code keeps the connection and reads the rest of it as the next response (leftover)."
  },
  {
   "property": "C92",
   "status": "proved",
   "theorems": [
    "Verif.Mb.objects_ordered",
    "Verif.Mb.certificate_first",
    "Verif.Mb.HTTPAPI_CreateConnection_spec",
    "Verif.Mb.HTTPAPI_CloseConnection_spec",
    "Verif.Mb.HTTPAPI_SetOption_spec",
    "Verif.Mb.HTTPAPI_CloneOption_spec",
    "Verif.Mb.histories",
    "Verif.Mb.histories_run",
    "Verif.Mb.sample_recorded"
   ],
   "note": "For clients that are not refused memory (`new` that fails ends the program), against the contract Mb.Honours of WolfSSLConnection."
  },
  {
   "property": "C93",
   "status": "proved",
   "theorems": [
    "Verif.Wc.life_spec",
    "Verif.Wc.stream",
    "Verif.Wc.honours",
    "Verif.Wc.stack_run",
    "Verif.Wc.construct_spec",
    "Verif.Wc.destruct_spec",
    "Verif.Wc.connect_spec",
    "Verif.Wc.close_spec",
    "Verif.Wc.send_spec",
    "Verif.Wc.receive_spec",
    "Verif.Wc.receive_idle",
    "Verif.Wc.loadCertificate_spec",
    "Verif.Wc.isConnected_spec",
    "Verif.Wc.receiveCallback_spec",
    "Verif.Wc.sendCallback_spec",
    "Verif.Wc.demo_honours",
    "Verif.Wc.stack_demo"
   ],
   "note": "Against the contract Wc.Honours of wolfSSL and lwIP."
  },
  {
   "property": "C94",
   "status": "partial",
   "theorems": [
    "Verif.Wc.sockets_closed",
    "Verif.Wc.context_alive",
    "Verif.Wc.context_left_partial",
    "Verif.Wc.life_spec",
    "Verif.Wc.session_left",
    "Verif.Wc.failing"
   ],
   "note": "Sockets: proved. Context: never used after its release; but each failed handshake leaves a reference (context_left_partial, failing), and sessions are never released (session_left)."
  },
  {
   "property": "C95",
   "status": "partial",
   "theorems": [
    "Verif.Wc.never_again",
    "Verif.Wc.no_second_try",
    "Verif.Wc.closed_again_partial",
    "Verif.Wc.failing"
   ],
   "note": "False of the code: once connect failed with a socket at hand the object never connects again (never_again, for all lives). Proved: after close of a connected object, and after a failure to get a socket, connect starts afresh (closed_again_partial)."
  },
  {
   "property": "C96",
   "status": "partial",
   "theorems": [
    "Verif.Sw.ledger",
    "Verif.Sw.in_order_partial",
    "Verif.Sw.histories_run",
    "Verif.Sw.duplicates_bytes",
    "Verif.Sw.refused_bytes",
    "Verif.Sw.skips_bytes",
    "Verif.Sw.wrong_connection"
   ],
   "note": "False of the code: after a partial send the whole buffer is sent again (duplicates_bytes), a refused send may have sent a part (refused_bytes), a failing queued buffer is skipped (skips_bytes), the queue survives close and is sent on the next connection (wrong_connection). Proved: the ledger of all buffers, and the order if the socket takes all or nothing and no queued buffer meets an error."
  },
  {
   "property": "C97",
   "status": "partial",
   "theorems": [
    "Verif.Sw.completes_once",
    "Verif.Sw.completed_after_bytes",
    "Verif.Sw.failure_reported",
    "Verif.Sw.delivered",
    "Verif.Sw.silent_loss"
   ],
   "note": "Proved: at most one completion per accepted send, never before its bytes are taken; refused sends call the error callback; received bytes are delivered once and in order. False: a queued buffer that meets an error is thrown away without any report (silent_loss)."
  },
  {
   "property": "C98",
   "status": "proved",
   "theorems": [
    "Verif.Sw.histories",
    "Verif.Sw.histories_run",
    "Verif.Sw.refused_unless_open",
    "Verif.Sw.idle_unless_open",
    "Verif.Sw.close_reports",
    "Verif.Sw.descriptors",
    "Verif.Sw.all_closed",
    "Verif.Sw.address_lists"
   ],
   "note": "Against the contract Sw.Honours of Winsock and the callbacks."
  },
  {
   "property": "C99",
   "status": "partial",
   "theorems": [
    "Verif.Sw.dowork_rounds_partial",
    "Verif.Sw.never_returns"
   ],
   "note": "False of the code: while the socket is busy dowork tries again at once, for ever (never_returns). Proved: that, or bytes that keep arriving, are the only ways not to return."
  },
  {
   "property": "C100",
   "status": "partial",
   "theorems": [
    "Verif.Sm.ledger",
    "Verif.Sm.in_order_partial",
    "Verif.Sm.histories_run",
    "Verif.Sm.duplicates_bytes",
    "Verif.Sm.refused_bytes",
    "Verif.Sm.wrong_connection"
   ],
   "note": "False of the code: after a partial send of a queued buffer its last bytes are sent again (duplicates_bytes), a refused send may have sent a part (refused_bytes), the queue survives close and is sent on the next connection (wrong_connection). Proved: the ledger of all buffers, and the order if no queued buffer is sent in part and no refused one was."
  },
  {
   "property": "C101",
   "status": "partial",
   "theorems": [
    "Verif.Sm.completes_once",
    "Verif.Sm.completed_after_bytes",
    "Verif.Sm.failure_reported",
    "Verif.Sm.refused_after_failure",
    "Verif.Sm.delivered",
    "Verif.Sm.failure_hidden"
   ],
   "note": "Proved: at most one completion per accepted send, never before its bytes are taken; a connection that breaks under dowork is reported and sends are refused from then on; received blocks are delivered once and in order. False: an error of the first attempt, in socketio_send, is not reported, the send succeeds (failure_hidden)."
  },
  {
   "property": "C102",
   "status": "partial",
   "theorems": [
    "Verif.Sm.histories",
    "Verif.Sm.histories_run",
    "Verif.Sm.refused_unless_open",
    "Verif.Sm.idle_unless_open",
    "Verif.Sm.close_reports",
    "Verif.Sm.connections_partial",
    "Verif.Sm.all_deleted_partial",
    "Verif.Sm.lost_by_close",
    "Verif.Sm.never_deleted",
    "Verif.Sm.reopened",
    "Verif.Sm.null_host"
   ],
   "note": "Against the contract Sm.Honours. Proved for clients that do not open an open handle and give host names. False: a handle that is closed does not delete its connection object (never_deleted; proved: these are the only ones), opening an open handle can lead to a method call of NULL (reopened), a NULL host name is dereferenced (null_host)."
  },
  {
   "property": "C103",
   "status": "partial",
   "theorems": [
    "Verif.Sm.dowork_rounds_partial",
    "Verif.Sm.never_returns"
   ],
   "note": "False of the code: a connection that takes nothing without an error is tried again at once, for ever (never_returns). Proved: that, or blocks that keep arriving, are the only ways not to return."
  },
  {
   "property": "C104",
   "status": "partial",
   "theorems": [
    "Verif.Wh.request_sent_partial",
    "Verif.Wh.sent_once",
    "Verif.Wh.connected_to",
    "Verif.Wh.headers_passed",
    "Verif.Wh.refused_not_sent",
    "Verif.Wh.HTTPAPI_ExecuteRequest_spec",
    "Verif.Wh.body_cut"
   ],
   "note": "Against the contract Wh.Honours of WinHTTP. Proved for bodies of less than 2^32 bytes; false for larger ones, of which only the length modulo 2^32 is sent (body_cut)."
  },
  {
   "property": "C105",
   "status": "partial",
   "theorems": [
    "Verif.Wh.response_delivered_partial",
    "Verif.Wh.untouched",
    "Verif.Wh.no_failure",
    "Verif.Wh.stale_body",
    "Verif.Wh.hole_left",
    "Verif.Wh.headers_missed",
    "Verif.Wh.header_skipped"
   ],
   "note": "False of the code: the buffer keeps what it held before (stale_body), a piece shorter than announced leaves indeterminate bytes (hole_left), headers that WinHTTP does not give or for which there is no memory are missing although the result is HTTPAPI_OK (headers_missed, header_skipped). The rest is proved over all histories."
  },
  {
   "property": "C106",
   "status": "partial",
   "theorems": [
    "Verif.Wh.handles_balance",
    "Verif.Wh.uses_open",
    "Verif.Wh.users_held",
    "Verif.Wh.left_open",
    "Verif.Wh.sample_recorded"
   ],
   "note": "False of the code: HTTPAPI_CloseConnection after the last HTTPAPI_Deinit does nothing, so the connection is never closed (left_open). Proved: the balance of all handles, with exactly these left over, and no call on a handle that is not open."
  },
  {
   "property": "C107",
   "status": "partial",
   "theorems": [
    "Verif.Wh.histories",
    "Verif.Wh.histories_run",
    "Verif.Wh.nothing_lost_partial",
    "Verif.Wh.lost_by_request",
    "Verif.Wh.broken_only",
    "Verif.Wh.demo_honours",
    "Verif.Wh.left_open",
    "Verif.Wh.line_lost",
    "Verif.Wh.null_host",
    "Verif.Wh.null_host_close"
   ],
   "note": "False of the code: connections closed after HTTPAPI_Deinit (left_open), the line of a refused response header (line_lost), and a host name that is NULL or cannot be converted, for which a handle that is no connection is returned (null_host, null_host_close). Proved: these are the only losses."
  },
  {
   "property": "C108",
   "status": "partial",
   "theorems": [
    "Verif.Sock.failure_reported",
    "Verif.Sock.delivered",
    "Verif.Sock.refused_after_failure",
    "Verif.Sock.histories",
    "Verif.Sock.histories_run",
    "Verif.Sock.silent_hangup"
   ],
   "note": "Proved: each failing send is reported once, each received byte is delivered once and in order, sends are refused after a failure under socketio_dowork. False: a connection closed by the peer, or a failing recv, is not reported to anyone (silent_hangup)."
  },
  {
   "property": "C109",
   "status": "partial",
   "theorems": [
    "Verif.Sock.dowork_rounds_partial",
    "Verif.Sock.never_returns"
   ],
   "note": "False of the code: a queued buffer of which the socket takes nothing is tried again at once, for ever (never_returns). Proved: partial sends, or bytes that keep arriving, are the only ways not to return."
  },
  {
   "property": "C110",
   "status": "partial",
   "theorems": [
    "Verif.Wce.hook_returns",
    "Verif.Wce.strict_partial",
    "Verif.Wce.checked",
    "Verif.Wce.refused",
    "Verif.Wce.forged",
    "Verif.Wce.hook_accepts",
    "Verif.Wce.hook_refuses",
    "Verif.Wce.hook_issuer",
    "Verif.Wce.hook_demo",
    "Verif.Wce.demo_chonours",
    "Verif.Wce.SSLValidateCertHook_spec"
   ],
   "note": "SSLValidateCertHook of httpapi_wince.c on a contract of the CryptoAPI. The strict check compares issuer and serial number (CertCompareCertificate), not the certificate: forged is a run where a certificate with another key, that no store has, is accepted. What is proved: accepted only if a store has a certificate with the same issuer and serial number; one that is in an opened store is accepted; exact verdict for every setting"
  },
  {
   "property": "C111",
   "status": "proved",
   "theorems": [
    "Verif.Wce.hook_tidy",
    "Verif.Wce.SSLValidateCertHook_spec",
    "Verif.Wce.hook_demo"
   ],
   "note": "holdAll replays the calls of the CryptoAPI: nothing is used or released that is not held, and nothing is held at the end"
  },
  {
   "property": "C112",
   "status": "partial",
   "theorems": [
    "Verif.Wce.requests_sent_partial",
    "Verif.Wce.no_answer_partial",
    "Verif.Wce.never_connects",
    "Verif.Wce.HTTPAPI_ExecuteRequest_spec",
    "Verif.Wce.ensureConnected_spec",
    "Verif.Wce.gets_matched",
    "Verif.Wce.unknown_dead",
    "Verif.Wce.unknown_run",
    "Verif.Wce.success_unsent",
    "Verif.Wce.cut_short"
   ],
   "note": "Against the contract Wce.Honours of Winsock. False of the code: when no connection is made the result is a variable that was never set, so HTTPAPI_OK is possible (success_unsent); a socket whose host was not found, or that could not be made secure, is kept and the handle never connects again (never_connects, unknown_run); a body cut short is a success (cut_short). Proved for results of that variable that say nothing was sent (hJ)."
  },
  {
   "property": "C113",
   "status": "proved",
   "theorems": [
    "Verif.Wce.connections_secured",
    "Verif.Wce.sockets_ordered",
    "Verif.Wce.SSLInit_spec",
    "Verif.Wce.ensureConnected_spec",
    "Verif.Wce.send_dead",
    "Verif.Wce.sample_recorded"
   ],
   "note": "connections_secured: to the created host, port 443, option strict, right after secure, hook and tls succeeded; send on a socket that is not connected fails by the contract (dead)"
  },
  {
   "property": "C114",
   "status": "partial",
   "theorems": [
    "Verif.Wce.answers_matched_partial",
    "Verif.Wce.conversation",
    "Verif.Wce.exchange_spec",
    "Verif.Wce.gets_matched",
    "Verif.Wce.sample_recorded"
   ],
   "note": "Proved under hJ and if no request failed while it was sent; that a failed request misaligns is inherited from httpapi_mbed.cpp (Mb.leftover)."
  },
  {
   "property": "C115",
   "status": "partial",
   "theorems": [
    "Verif.Wce.histories",
    "Verif.Wce.histories_run",
    "Verif.Wce.sockets_closed",
    "Verif.Wce.sockets_ordered",
    "Verif.Wce.HTTPAPI_CreateConnection_spec",
    "Verif.Wce.HTTPAPI_CloseConnection_spec",
    "Verif.Wce.HTTPAPI_Init_spec",
    "Verif.Wce.HTTPAPI_Deinit_spec",
    "Verif.Wce.HTTPAPI_CloneOption_spec",
    "Verif.Wce.wsa_honours",
    "Verif.Wce.sample_recorded",
    "Verif.Wce.dotted_overflow",
    "Verif.Wce.dotted_name",
    "Verif.Wce.no_answer"
   ],
   "note": "False of the code: a host that begins with three numbers and points between them overflows address[4] (dotted_overflow, dotted_name), and a connection closed before the answer uses bytes never written (no_answer). Proved for all other hosts and peers whose answers can be read (Served)."
  },
  {
   "property": "C116",
   "status": "partial",
   "theorems": [
    "Verif.Plat.win32_meets",
    "Verif.Plat.mbed_meets",
    "Verif.Plat.linux_meets",
    "Verif.Plat.stub_meets",
    "Verif.Plat.histories",
    "Verif.Plat.winsock_counts",
    "Verif.Plat.mbed_init_result",
    "Verif.Plat.mbed_link_partial",
    "Verif.Plat.works_honours",
    "Verif.Plat.shared_link",
    "Verif.Plat.nested_winsock",
    "Verif.Plat.alternate_demo"
   ],
   "note": "Windows: proved. mbed: false when the platform is initialised by two modules, the first platform_deinit disconnects both (shared_link); proved if calls alternate, and that a failed platform_init leaves nothing connected."
  },
  {
   "property": "C117",
   "status": "partial",
   "theorems": [
    "Verif.Curl.calls_asked",
    "Verif.Curl.created_by",
    "Verif.Curl.client_request",
    "Verif.Curl.sample_sent",
    "Verif.Curl.get_becomes_post",
    "Verif.Curl.blank_dropped",
    "Verif.Ex.calls_asked",
    "Verif.Ex.created_by",
    "Verif.Ex.client_request",
    "Verif.Ex.bounds_reached",
    "Verif.Ti.calls_asked",
    "Verif.Ti.client_request",
    "Verif.Wh.calls_asked",
    "Verif.Wh.client_request",
    "Verif.Wh.body_cut",
    "Verif.Mb.calls_asked",
    "Verif.Mb.text_asked",
    "Verif.Mb.client_request",
    "Verif.Mb.gets_matched",
    "Verif.Wce.calls_asked",
    "Verif.Wce.client_request"
   ],
   "note": "Proved for every history. Partial only because three backends deviate, and then the theorem says what is sent: on libcurl a GET with content becomes a POST (get_becomes_post) and headers with blank values are dropped (blank_dropped), on WinHTTP bodies are cut at their length modulo 2^32 (body_cut)."
  },
  {
   "property": "C118",
   "status": "proved",
   "theorems": [
    "Verif.Sock.historiesC",
    "Verif.Sock.historiesC_run",
    "Verif.Sock.doworkC_spec",
    "Verif.Sock.sendIn_spec",
    "Verif.Sock.sends_in_order",
    "Verif.Sock.told_in_order",
    "Verif.Sock.completions_in_order",
    "Verif.Sock.stream_in_order",
    "Verif.Sock.completions_of_accepted",
    "Verif.Sock.flow_run",
    "Verif.Sock.flow_smooth",
    "Verif.Sock.flow_stream",
    "Verif.Sock.chats",
    "Verif.Sock.demo_honours"
   ],
   "note": "Every client that sends from its completion and receive callbacks (Client: any function from callbacks to messages; nest: to any depth). historiesC: defined, returns, all memory accounted for, steps as stepC says; completions_in_order: over every history, per handle; stream_in_order: the bytes, as long as dowork meets no failing or partly accepting socket (otherwise C47 fails); sends_in_order: while the socket takes messages whole. What parts of messages the socket sees when it takes them partly is C47. chats: a run with sends from both callbacks."
  },
  {
   "property": "C119",
   "status": "partial",
   "theorems": [
    "Verif.Sock.quiet_after_close_partial",
    "Verif.Sock.quiet_client_partial",
    "Verif.Sock.closed_in_callback",
    "Verif.Sock.closed_after",
    "Verif.Sock.ended_in_dowork",
    "Verif.Sock.ended_in_send",
    "Verif.Sock.wrong_connection",
    "Verif.Sock.demo_honours"
   ],
   "note": "False of the code when the close happens in a completion callback called by socketio_dowork: the loop goes on with socket -1, calls the error callback and leaves the handle in the error state in which it cannot be opened (closed_in_callback). Destroying the handle in such a callback is undefined behaviour (ended_in_dowork). Proved for closes outside callbacks, also for clients that send in their callbacks (quiet_client_partial). Hypotheses are met by the run of wrong_connection (close, then open)."
  },
  {
   "property": "C120",
   "status": "proved",
   "theorems": [
    "Verif.XS.as_itself",
    "Verif.XS.through",
    "Verif.XS.through_end",
    "Verif.XS.histories",
    "Verif.XS.exec_spec",
    "Verif.XS.sock_create",
    "Verif.XS.sock_destroy",
    "Verif.XS.sock_open",
    "Verif.XS.sock_close",
    "Verif.XS.sock_send",
    "Verif.XS.sock_dowork",
    "Verif.XS.sock_setoption",
    "Verif.XS.demo_report",
    "Verif.XS.demo_good",
    "Verif.XS.demo_through"
   ],
   "note": "A history through xio is a history on the socket IO itself with the same record of system calls and callbacks (the result of dowork, whether its loops ended, is not seen through xio); ledger and descriptor theorems of the socket IO then apply. Not covered: callbacks that call back into the handle (C117-C119 are about the socket IO itself), xio_setoption within histories (sock_setoption says that it fails and changes nothing)."
  }
 ]
}