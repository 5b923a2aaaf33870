#!/usr/bin/env python3
"""Source of MANIFEST.json (run: python3 tools/gen_manifest.py)."""
import json
C=[]
def c(prop,status,ns,theorems,note):
    ts=[f"Verif.{ns}.{t}" if not t.startswith('Verif.') else t for t in theorems]
    for x in C:
        if x["property"]==prop:
            x["theorems"]+=ts; x["note"]+=" "+note
            if status!=x["status"]: x["status"]="partial"
            return
    C.append(dict(property=prop,status=status,theorems=ts,note=note))

c("C01","partial","Buffer",["BUFFER_create_spec","BUFFER_build_spec","BUFFER_pre_build_spec","BUFFER_unbuild_spec","BUFFER_enlarge_spec_partial","BUFFER_length_spec","BUFFER_size_spec","BUFFER_u_char_spec","BUFFER_content_spec","BUFFER_append_spec_partial","BUFFER_prepend_spec","BUFFER_clone_spec","BUFFER_history_partial","BUFFER_enlarge_wraps"],
"Proved for every buffer, size and allocator. Missing: BUFFER_enlarge when the sum of sizes wraps size_t (the code then shrinks the buffer and reports success: BUFFER_enlarge_wraps).")
c("C02","partial","Buffer",["BUFFER_new_spec","BUFFER_create_spec","BUFFER_build_spec","BUFFER_pre_build_spec","BUFFER_unbuild_spec","BUFFER_enlarge_spec_partial","BUFFER_append_spec_partial","BUFFER_append_self","BUFFER_prepend_spec","BUFFER_clone_spec","BUFFER_history_partial"],
"Failure leaves all buffers unchanged; failure only for argument errors or allocator refusal. Missing: append of two zero-length buffers (undefined behaviour in the code).")
c("C03","partial","Buffer",["BUFFER_no_leak_partial","BUFFER_history_partial","BUFFER_delete_spec","BUFFER_append_two_empty_is_UB"],
"No leak, double free or out-of-bounds access for every history and allocator, except BUFFER_append of a zero-length buffer to a zero-length buffer, where the code calls realloc(p,0): BUFFER_append_two_empty_is_UB.")
c("C04","partial","Strings",["STRING_new_spec","STRING_construct_spec","STRING_construct_n_spec","STRING_new_with_memory_spec","STRING_new_quoted_spec","STRING_clone_spec","STRING_concat_spec","STRING_concat_with_STRING_spec_partial","STRING_copy_spec","STRING_copy_self","STRING_copy_n_spec","STRING_quote_spec","STRING_empty_spec","STRING_c_str_spec","STRING_length_spec","STRING_history_partial"],
"Proved for all texts, n and allocators, per call and over histories of many handles. Missing only: appending a string to itself (undefined behaviour in the code, see C05).")
c("C05","partial","Strings",["STRING_history_partial","STRING_no_leak_partial","STRING_delete_spec","STRING_concat_self_is_UB"],
"Proved for every history and allocation-failure pattern in which no string is appended to itself; STRING_concat_self_is_UB shows the code does not have the property without that restriction.")
c("C06","proved","Strings",["STRING_new_JSON_spec","Verif.Strings.jsonText_reads","Verif.Json.JString.unique"],
"RFC 8259 string grammar and decoder are in Strings/JsonSpec.lean, independent of the code; exact size and bounds follow from the triple (no undefined behaviour).")
c("C07","proved","Strings",["STRING_compare_spec","STRING_compare_self","compare_eq_zero","compare_antisymm","compare_trans","compare_lt","compare_null"],
"STRING_compare computes compareSpec; the order laws are proved for all texts and NULL.")
c("C26","partial","Crt",["strcpy_s_spec_partial","strcat_s_spec_partial","strncpy_s_spec","safe_null","sprintf_s_spec_partial","mallocAndStrcpy_s_spec","strcpy_s_size0_writes"],
"Missing: destination size 0, where strcpy_s and strcat_s store a NUL in dst[0] (strcpy_s_size0_writes).")
c("C27","proved","Crt",["unsignedIntToString_spec","size_tToString_spec","toString_null","size_tToString_21","IsDecimal.unique","decimal_is","decimal_length_64","decimal_length_32"],
"The written text is the unique canonical decimal text of the value, and success is exactly when it fits.")
c("C08","proved","Map",["Map_Create_spec","Map_Add_spec","Map_AddOrUpdate_spec","Map_Delete_spec","Map_ContainsKey_spec","Map_ContainsValue_spec","Map_GetValueFromKey_spec","Map_GetInternals_spec","Map_history","Map_keys_unique","Map_AddOrUpdate_own_value_is_UB"],
"Per call and over all histories of many maps. Arguments are texts in the caller's own storage; Map_AddOrUpdate_own_value_is_UB shows that passing a pointer into the same map is undefined behaviour.")
c("C09","proved","Map",["Map_history","Map_no_leak","Map_Destroy_spec","Map_Clone_spec","Map_Add_spec","Map_AddOrUpdate_spec"],
"For every allocator behaviour: MAP_ERROR leaves the pairs unchanged, is returned only if the allocator refused a request (or the request exceeds the modelled largest object size), and memory in use is exactly that of the live maps.")
c("C10","partial","Map",["Map_filter_partial","Map_filter_lost_by_delete","Map_filter_lost_by_clone","Map_filter_lost_by_failure"],
"Proved: as long as a map has a filter all its pairs are accepted ones. The full property is false of the code: deleting the last pair, cloning an empty map, or a failed first insertion drops the filter (three witnesses).")
c("C11","proved","Map",["Map_Clone_spec","Map_history"],
"The clone has the same pairs in the same order and is a separate object (separating conjunction); Map_history covers all later operations on both.")
c("C12","proved","Map",["Map_ToJSON_spec","Verif.Json.JObject.unique","Verif.Json.JMembers.unique"],
"Grammar JObject is independent of the code and unambiguous. Failure only for NULL handle, non-7-bit text, refused allocation or a text larger than the modelled largest object.")
c("C13","proved","Const",["ConstMap_Create_spec","ConstMap_Clone_spec","ConstMap_Destroy_spec","ConstMap_null","ConstMap_CloneWriteable_spec","ConstMap_ContainsKey_spec","ConstMap_ContainsValue_spec","ConstMap_GetValue_spec","ConstMap_GetInternals_spec","ConstMap_history","ConstMap_no_leak"],
"Per call and over all histories mixing map calls and const map calls (fewer than 2^32 references).")
c("C14","proved","Const",["CONSTBUFFER_Create_spec","CONSTBUFFER_Create_null","CONSTBUFFER_CreateFromBuffer_spec","CONSTBUFFER_Clone_spec","CONSTBUFFER_Destroy_spec","CONSTBUFFER_null","GetContent_spec","CONSTBUFFER_history","CONSTBUFFER_no_leak","CONSTBUFFER_threads","destroyP_run","cloneP_run"],
"Histories of one client on many buffers, and every schedule of any number of threads sharing one buffer (each memory access one atomic step, sequentially consistent memory). destroyP_run/cloneP_run relate the thread programs to the sequential model.")
c("C15","proved","List",["list_create_spec","list_add_spec","list_remove_spec","list_get_head_item_spec","list_get_next_item_spec","list_item_get_value_spec","item_null","list_find_spec","list_find_null","traverse_spec","list_history"],
"Per call (any client match function that leaves the list alone) and over all histories of many lists; loops are proved to end.")
c("C16","proved","List",["list_destroy_spec","list_history","list_no_leak"],
"Every node and list block is freed exactly once, for every history and allocator.")
c("C17","proved","DList",["DList_InitializeListHead_spec","DList_IsListEmpty_spec","DList_RemoveEntryList_spec","DList_RemoveHeadList_spec","DList_RemoveHeadList_empty","DList_InsertTailList_spec","DList_InsertHeadList_spec","DList_AppendTailList_spec","forward_spec","backward_spec","DL_rotate","DList_history"],
"All list lengths and positions; every legal history over any number of lists; entries carry arbitrary client data that is untouched. Entry embedded at offset 0 of its block.")
c("C18","partial","Vec",["VECTOR_create_spec","VECTOR_push_back_spec","VECTOR_erase_spec_partial","VECTOR_clear_spec","VECTOR_size_spec","VECTOR_element_spec_partial","VECTOR_front_spec","VECTOR_back_spec_partial","readAt_spec","VECTOR_find_if_spec","VECTOR_destroy_spec","VECTOR_null","VECTOR_history_partial","VECTOR_no_leak_partial","VECTOR_erase_loses_all","VECTOR_size0_is_UB"],
"Missing: element size 0 (second push is realloc(p,0), VECTOR_size0_is_UB) and VECTOR_erase when the allocator refuses to shrink (code loses the storage, VECTOR_erase_loses_all).")
c("C19","partial","Vec",["VECTOR_element_spec_partial","VECTOR_front_spec","VECTOR_back_spec_partial","VECTOR_element_at_count","VECTOR_back_empty"],
"False of the code at index == count and for VECTOR_back of an empty vector (witnesses); proved for every other index, for VECTOR_front, and for VECTOR_back of nonempty vectors.")
c("C20","proved","Base64",["Base64_Encode_Bytes_spec","Base64_Encode_spec","Base64_Encode_Internal_spec","encodeLoop_spec","rfc4648_length"],
"Against an independent RFC 4648 encoder (its test vectors are checked). encodeLoop_spec: the allocated block is exactly filled. Base64_Encode's input is a BUFFER whose storage is initialised.")
c("C21","proved","Base64",["roundtrip_spec","Base64_Decoder_wellformed","Decodes_rfc4648","Decodes.unique"],
"roundtrip_spec runs encode, c_str and decode on any bytes; Base64_Decoder_wellformed covers every well formed base64 text.")
c("C22","partial","Base64",["Base64_Decoder_spec_partial","Base64_Decoder_wellformed","decoder_overflows","decoder_uninitialised","not_all_fit"],
"False of the code: 'AAAAAA' and 'AAA==' make the decoder write past its buffer, 'AAAA====' returns an uninitialised byte (witnesses). Proved: full functional result for every string for which the allotted size suffices, in particular all well formed texts (where every byte is written).")
c("C23","proved","Url",["URL_Encode_spec","URL_EncodeString_spec","Encoded_Str","encodeLoop_spec","decode_encode","encode_injective","encode_chars"],
"Against an independent percent-encoder; the result block is exactly encoding + NUL (Encoded). Percent-decoding gives the UTF-8 form of the Latin-1 input; injective; output alphabet.")
c("C54","partial","Url",["URL_Encode_spec","URL_Encode_no_leak_partial","URL_Encode_leaks"],
"False of the code: the encoded text is leaked when STRING_new_with_memory fails (URL_Encode_leaks). URL_Encode_spec says exactly what is lost and when; nothing is lost if no allocation is refused.")
c("C24","proved","Tok",["requests_spec","tokenize_spec","create_from_char_spec","create_spec","destroy_spec","destroy_null","get_next_token_spec","get_next_token_null","IsRuns.unique","IsRuns.exists"],
"Any text, one-character delimiter, any number of calls; IsRuns is an independent and functional specification. A refused allocation makes a call fail without losing a token.")
c("C25","partial","Tok",["tokenize_delimiters_partial","get_next_token_spec","token_end_wrong"],
"False of the code: 'a;b,c' with delimiters ',;' gives the token 'a;b' (token_end_wrong). Proved for all texts containing at most one kind of the delimiters; get_next_token_spec gives the exact behaviour for all texts.")
c("C28","proved","Headers",["HTTPHeaders_history","HTTPHeaders_no_leak","store_header_spec","HTTPHeaders_FindHeaderValue_spec","HTTPHeaders_GetHeaderCount_spec","HTTPHeaders_Alloc_spec","HTTPHeaders_Clone_spec","HTTPHeaders_Free_spec","find_stored_self","find_stored_other","length_stored","HTTPHeaders_Replace_own_value_is_UB"],
"All histories on any number of header sets. Argument texts must not point into the same header set (HTTPHeaders_Replace_own_value_is_UB shows why).")
c("C29","proved","Headers",["HTTPHeaders_GetHeader_spec","HTTPHeaders_history"],
"GotHeader: exact block 'name: value' NUL, fresh, for index < count; INVALID_ARG otherwise; ERROR only when the allocation is refused.")
c("C30","partial","Gballoc",["gballoc_history","exec_spec","gballoc_malloc_spec","gballoc_calloc_spec","gballoc_realloc_spec","gballoc_free_spec","gballoc_init_spec","gballoc_deinit_spec","gballoc_getCur_spec","current_is_live","demo_safe","gballoc_deinit_live"],
"False of the code when gballoc_deinit is called with tracked blocks live and the module is initialised again: stale records make the reported usage wrap (gballoc_deinit_live). Proved for every client (adaptive, any allocator) that deinitialises only with nothing tracked. Usage is a size_t, i.e. modulo 2^64. realloc(p,0) is undefined behaviour in C23 and excluded.")
c("C31","partial","Gballoc",["peak_is_high_water","step_peak","after_init","maximum_is_peak","gballoc_getMax_spec","gballoc_history"],
"Same client condition as C30: the reported maximum is the maximum of the usage over the history since init, hence monotone and never below the current usage.")
c("C32","partial","Gballoc",["gballoc_threads_partial","threads_guarded","guard_only_stops","gballoc_threads_nofree","gballoc_free_race","gballoc_lost_record"],
"False of the code: gballoc_free reads the list head before taking the lock (use after free witness gballoc_free_race; lost record witness gballoc_lost_record). Proved: linearizability for all schedules in which no other thread changes the head between that read and the lock (in particular all programs that only allocate).")
c("C33","proved","Sha",["digest","digest_bits","too_long","history","sha1_abc","sha256_abc","Fips.root_spec","Fips.zeros_spec"],
"Against a bit-level FIPS 180-2 specification (constants derived from the roots of the primes). Any context contents, any splitting. Beyond the limit of the standard Result returns 1.")
c("C34","proved","Sha",["split","digest"],
"Any two splittings of any message, even of messages beyond the limit.")
c("C35","proved","Sha",["misuse","result_twice","reset_recovers","history","misuse_case"],
"history: every sequence of Reset/Input/FinalBits/Result (also with a NULL array) returns exactly the codes and digests of the specification.")
c("C36","partial","Sha",["threads_partial","threadOf_run","race","race_result","race_fixed"],
"False of the code: the static addTemp is shared; a schedule of two threads gives a wrong digest with all calls successful (race). Proved for any number of threads and every schedule in which the AddLength macro is not interrupted.")
c("C33","proved","Hmac",["USHA_history","USHA_sizes","USHAReset_bad"],"The generic interface of usha.c (selected by whichSha) behaves as the selected hash over every history.")
c("C37","proved","Hmac",["hmac_rfc2104","hmac_parts","rfc4231_2"],
"All keys shorter than 2^31 bytes (the range of key_len), all texts whose length is an unsigned int, all five hashes, arbitrary contents of the uninitialised contexts; hmac_parts: any splitting.")
c("C38","partial","Hmac",["HMACSHA256_ComputeHash_partial","HMACSHA256_ComputeHash_spec","HMACSHA256_ComputeHash_null","payload_truncated","key_ignored","nonempty_buffer","rfc4231_1"],
"False of the code for lengths that do not fit an int/unsigned (payload_truncated, key_ignored). HMACSHA256_ComputeHash_spec gives the exact result for all lengths and all previous buffer contents.")
c("C39","partial","Sas",["SASToken_Create_partial","SASToken_Create_spec","SASToken_Create_leaks","demo_token"],
"False of the code: the percent-encoded signature is leaked when the last allocation in URL_Encode is refused (SASToken_Create_leaks); for scopes near 2^32 bytes the signed text is truncated (sigX in SASToken_Create_spec). SASToken_Create_spec: exact result, all allocation outcomes (at most one block lost), all sizes, handles may coincide, for keys that are base64 texts; SASToken_Create_partial: the documented token, nothing lost if no request is refused.")
c("C46","proved","Xio",["forwards","forwards_run","exec_spec","xio_create_spec","xio_destroy_spec","xio_open_spec","xio_close_spec","xio_send_spec","xio_dowork_spec","xio_setoption_spec","ledger","demo_honours"],
"Any set of implementations meeting the contract Honours (arbitrary results and memory), any descriptions, any history on any number of handles, any allocator. ledger: concrete objects created = destroyed + still held. Assumed: an implementation does not re-enter the same xio handle while it runs.")
c("C50","proved","Cond",["Condition_Wait_spec","Condition_Post_spec","Condition_Deinit_spec","deadline","anyOs_honours"],
"Operating system functions are parameters with the contract Honours (any results); the deadline is exact and normalised for every clock value less than 2^62 s and every int timeout; signed overflow is UB in the model.")
c("C51","proved","Thr",["history","no_leak","create_spec","join_spec","start_spec","finish_spec","sleep_exact"],
"Every history of Create/Join calls interleaved with scheduler steps (thread starts, thread ends), any error codes, any allocator: no use after free of the instance, functions called with the given argument, result returned exactly, handle released once. Assumed: pthread_join fails only for threads that have started.")
c("C52","partial","Tick",["history_partial","exec_spec","tickcounter_create_spec","tickcounter_destroy_spec","tickcounter_get_current_ms_spec","monotone","elapsed","clock_back_ub","demo_honours","roundNat_nearest"],
"False of the code when the (wall) clock goes back below the creation time: undefined conversion (clock_back_ub). Proved for every history under a clock that does not go back and stays below 9007199254740 s (exactness of double).")
c("C53","proved","Uid",["UniqueId_Generate_spec","UniqueId_Generate_null","text_injective","text_layout","demo_honours"],
"Any random source, any buffer length, the rest of the buffer untouched; layout and injectivity of the text.")
c("C55","partial","Uid",["variant_digit_partial","version_digit_arbitrary","UniqueId_Generate_spec"],
"False of the code: the version bits are put into byte 7, so the digit 4 is at position 17 and the version digit at 14 is arbitrary (version_digit_arbitrary). The variant digit is correct.")
c("C56","partial","Cond",["Condition_Init_partial","Condition_Init_ignores_failure","Condition_Init_spec"],
"False of the code: the result of pthread_cond_init is ignored (Condition_Init_ignores_failure). Condition_Init_spec gives the exact outcome in all cases.")
c("C47","partial","Sock",["in_order_partial","ledger","histories","histories_run","duplicates_bytes","skips_bytes","refused_bytes","wrong_connection"],"The full property is false of the code: duplicates_bytes, skips_bytes, refused_bytes and wrong_connection (the queue survives close) are runs of the model that break it. in_order_partial proves it for histories without these three events; ledger describes what happens to each buffer in every history.")
c("C48","proved","Sock",["completes_once","completed_after_bytes","refused_unless_open","idle_unless_open","ledger","histories","histories_run"],"")
c("C57","partial","Sock",["close_reports_partial","close_of_closed","histories","histories_run"],"Closing an open handle is right. Closing a handle that is not open reports success although the callback is never called (line 357 overwrites the result): close_of_closed.")
c("C58","proved","Sock",["descriptors","all_closed","address_lists","histories","histories_run"],"")
c("C40","proved","Ex",["attempts_bounded","fresh_once","histories","histories_run","bounds_reached"],"The bounds are 1, 2 and 3 and are reached (bounds_reached). Every history runs to its end (histories_run), so each call returns.")
c("C41","proved","Ex",["protocol","protocol_always","balance","all_released","histories","histories_run"],"")
c("C42","proved","Ex",["ok_iff","recovery_failed","ok_connected","refused","histories","histories_run"],"")
c("C43","proved","Ex",["options_applied","ok_saves","saved_names","saved_value","histories","histories_run"],"An option whose value is refused by an open connection is nevertheless saved and applied to later connections (Entry.saves).")
c("C44","proved","Ex",["what_is_sent","caller_objects","nothing_left","histories","histories_run","HTTPAPIEX_ExecuteRequest_spec"],"Leading white space of the host name is dropped by the header functions. Header names are compared exactly.")
c("C45","partial","Exs",["histories_partial","run_partial","HTTPAPIEX_SAS_ExecuteRequest_partial","refresh_spec","untouched","only_authorization","refreshed","HTTPAPIEX_SAS_Create_spec","HTTPAPIEX_SAS_Destroy_spec","too_early","demo_refreshed"],"Any transport and clock meeting their contracts, any history on any number of handles of both kinds, any allocator. False of the code for a clock more than an hour before 1970 (too_early: undefined conversion). Missing: keys that are not base64 texts (the decoder is unsafe on them, C22); if an allocation is refused a block may be lost (C39).")
c("C49","partial","Tls",["ok_justified","ok_once","ok_reported","failure_reported","send_refused","send_accepted","delivered_partial","no_undefined_behaviour","sound","life_reachable","life_told","life_phases","late_delivery","two_oks","destroy_in_callback"],"All plays of the code against any environment of the policy std, with calls from inside callbacks to any depth. False of the code only in one respect: if the user closes inside on_bytes_received, bytes already decrypted are still delivered (late_delivery); delivered_partial says exactly when. two_oks and destroy_in_callback show that the assumptions of the policy are needed.")
c("C59","proved","Tls",["ciphertext_only","received","written","delivered_partial","all_delivered","reads_on","send_result","send_accepted","life_reachable"],"delivered_partial is partial only as to the state in which bytes are delivered (C49); as to which bytes, it is complete.")
c("C60","partial","Tls",["ledger","all_released_partial","create_holds","destroy_releases","setoption_holds","create_leaks","option_leaks"],"False of the code: tlsio_openssl_create leaks the lower IO if the SSL objects cannot be made (create_leaks), and each successful setting of TrustedCerts leaks an X509 (option_leaks). ledger is exact for all histories: held = owned + these two leaks.")
c("C61","partial","Tls",["open_refused","open_result","ok_once","ok_justified","failure_reported","close_refused","close_reported","close_once","close_answered","reopen_gives_up","answered_twice","failed_close_stuck"],"False of the code in three respects: an open can be answered with success and then with failure or vice versa (answered_twice), a close whose xio_close fails leaves the TLS IO in the closing state for good (failed_close_stuck), and a second open after a close fails as the SSL object is not renewed (reopen_gives_up). The remaining parts are proved for all plays.")
c("C62","proved","Wolf",["fetched_in_order","stream_at","recv_gets","recv_result","delivery_kept","loss_reported","no_undefined_behaviour","sound","life_reachable","life_told"],"Over all plays of the standard environment: the lower IO does not deliver empty chunks (socketio does not; otherwise empty_chunk in Demo.lean is undefined behaviour), no destroy inside a callback.")
c("C63","proved","Wolf",["send_refused","written","send_result","ciphertext_only","ciphertext_all","ciphertext_result","delivered","all_delivered","reads_on","life_reachable"],"Over all plays. Bytes decrypted while no receive callback is set are dropped, as the code intends.")
c("C64","partial","Wolf",["ok_justified","ok_once_partial","ok_reported","failure_justified","failure_reported","error_reported","error_justified","open_refused","open_result","connect_result","close_result","close_reported","close_answered","two_oks","never_reopens","close_answered_twice","failed_handshake_stuck","keeps_polling","life_phases"],"False of the code in parts, with plays as witnesses: success twice for one open (two_oks), a closed TLS IO can never be opened again (never_reopens), a close can be answered twice (close_answered_twice), a failed handshake leaves it stuck (failed_handshake_stuck). ok_once_partial: between two successes the lower IO was opened, or said so, once more.")
c("C65","partial","Wolf",["ledger","blocks_held","all_released_partial","create_holds","create_wired","destroy_releases","life_blocks","create_leaks","destroy_in_callback"],"False of the code: tlsio_wolfssl_create leaks the lower IO when wolfSSL_new fails (create_leaks). Everything else is proved over all plays.")
c("C66","partial","Curl",["request_faithful","request_once","verb_partial","headers_partial","request_recorded","get_becomes_post","get_becomes_post_run","blank_dropped","sample_recorded"],"False of the code: a GET with content is sent as a POST in every history (get_becomes_post), and a header with a blank value is not sent (blank_dropped: libcurl takes `Name: ` as a request to remove the header). Everything else (URL, content, other methods and headers, options) is proved over all histories.")
c("C67","partial","Curl",["response_ok","response_failed","absorbs_merged","stale_content","masked_failure","released_twice","header_lost"],"False of the code: an empty body leaves old content in the buffer (stale_content); a refused allocation is masked by HTTPAPI_OK (masked_failure), loses a header silently (header_lost), or makes the code release the received body twice (released_twice; excluded by the assumption Room on libcurl). Everything else is proved over all histories.")
c("C68","proved","Curl",["option_result","clone_result","request_faithful"],"")
c("C69","proved","Curl",["global_calls","users_balance"],"")
c("C70","partial","Curl",["protocol","protocol_always","balance","all_closed","none_lost","nothing_left","nothing_left_partial","histories_run","null_handle"],"False of the code: if memory for the host name is refused, HTTPAPI_CreateConnection returns a handle that is no connection, whose memory cannot be released (null_handle). The client of the histories recognises such handles; everything else is proved.")
c("C71","proved","Sync",["mutual_exclusion","held_live","defined","handle_new","lock_succeeds","truthful","ledger","story_posted"],"lock_pthreads.c; for callers that observe Sync.Allowed.")
c("C72","proved","Sync",["no_lost_wakeup","woken_returns","wait_result","mutual_exclusion","defined","truthful","story_posted"],"condition_pthreads.c together with lock_pthreads.c; pthread_cond_init is assumed to succeed (C56).")
c("C73","proved","Sync",["c11_faithful","win32_faithful","mbed_faithful","port_mutual_exclusion","port_defined","port_ledger","port_handle_new","port_truthful","port_no_lost_wakeup","port_lock_succeeds","c11_locks","win32_locks","mbed_locks"],"Other lock and condition ports simulated by the pthreads machine of C71/C72.")
c("C74","partial","Tick.Win32",["reported_partial","elapsed_partial","get_exact","falls_behind","overflow_ub"],"Exact up to one microsecond lost per call; the full property is false (falls_behind, overflow_ub).")
c("C75","partial","Thr.Win32",["history_partial","history_refused","refused_is_ok"],"Full property false: a refused CreateThread is reported as THREADAPI_OK (refused_is_ok).")
c("C76","proved","Thr.C11",["history","no_leak"],"threadapi_c11.c, all histories and schedules.")
c("C77","partial","Thr.Mbed",["called_right","join_truthful_partial","sleep_exact","only_four","returned_never_joined","shared_handle","demo"],"Full property false: shared_handle, returned_never_joined, only_four.")
c("C78","partial","Cond.C11",["deadline_partial","early"],"Full property false: deadline up to one second early.")
c("C79","partial","Schan",["no_undefined_behaviour","stream_at","used_le","handshake_given","record_given","given_length","given_at_once","given_after_growth","asked_when_due","delivery_kept","sound","dropped_silently","stale_bytes","second_record_waits","early_bytes","nested_bytes","life_reachable","life_told"],"False of the code in parts, with plays as witnesses: bytes for which there is no memory are dropped in silence (dropped_silently), a reopened TLS IO gives SSPI bytes of the old connection (stale_bytes), a complete record that came together with another waits for further bytes (second_record_waits), a delivery before the client hello uses an uninitialised number (early_bytes), one inside a delivery leads outside the block (nested_bytes). In the standard environment, without such deliveries, the stream law and freedom from undefined behaviour are proved over all plays.")
c("C80","partial","Schan",["delivered","all_delivered","output_fetched","send_refused","encrypted","record_fits","ciphertext_only","ciphertext_all","send_result","empty_send","altered_record_silent","life_told"],"False of the code for a send of no bytes, which succeeds without any TLS IO and whose completion is never reported (empty_send). The rest is proved over all plays.")
c("C81","partial","Schan",["ok_justified","ok_reported","handshake_end","token_sent","failure_justified","failure_reported","never_cancelled","error_reported","error_justified","open_refused","open_result","close_result","close_reported","close_answered","failed_open_ignored","hello_failure_silent","handshake_failure_silent","open_error_misreported","refused_open_stuck","refused_close_stuck","close_forgotten","life_phases"],"False of the code in parts, with plays as witnesses: the failed open of the lower IO is ignored (failed_open_ignored), several failures are reported to nobody (hello_failure_silent, handshake_failure_silent) or as an IO error (open_error_misreported), refused opens and closes leave the TLS IO stuck, a close inside the handshake is forgotten (close_forgotten). The rest is proved over all plays.")
c("C82","partial","Schan",["ledger","gotten_held","all_released_partial","create_holds","destroy_releases","contexts_leak","reopen_leaks","destroy_in_callback","life_blocks"],"False of the code: security contexts and tokens are never released (contexts_leak: no play releases one), and the credential handle of the first open is lost on the second (reopen_leaks). Everything else is proved over all plays.")
c("C83","partial","Tick.Mbed",["reported_partial","elapsed_partial","get_exact","falls_behind","gap_lost"],"Exact up to one millisecond lost per reading, for readings less than 2^32/1000 ticks apart; the full property is false (falls_behind, gap_lost).")
c("C84","partial","Uid",["Linux.generate","Linux.generate_invalid","Win32.generate_partial","Win32.generate_invalid","demoRpc_honours","Win32.overread"],"Full on Linux; on Windows only for len = 37, the property is false of larger buffers (Win32.overread).")
c("C85","proved","Ti",["clients_balance","calls_allowed","histories","histories_run","demo_honours","sample_recorded"],"Against the contract Ti.Honours of TI's HTTPCli; NULL as host name is passed on to the library (null_host) and is outside the contract.")
c("C86","proved","Ti",["request_sent","headers_passed","request_ok","HTTPAPI_ExecuteRequest_spec"],"The fields are sent in the reverse order of the headers object, which HTTP gives the same meaning.")
c("C87","partial","Ti",["request_ok","response_body_partial","stale_tail","masked_failure","masked_refusal","needs_nul"],"False of the code: failures while the body is read or stored are masked by HTTPAPI_OK (masked_failure, masked_refusal), and a buffer that was not empty gets a tail of indeterminate bytes (stale_tail). Status and headers are proved in full, the body for empty buffers without failures.")
c("C88","partial","Ti",["lost_only_if_refused","nothing_lost","histories_run","line_lost"],"False of the code: the block of a header line that cannot be enlarged is lost (line_lost). Nothing else is lost, and nothing at all if memory is not refused.")
c("C89","partial","Mb",["HTTPAPI_ExecuteRequest_spec","Says.det","plain_read","chunked_read","bare_read","histories","histories_run","demo_honours","sample_recorded","sample_recorded_chunked","cut_short","wild_write","used_buffer","refused_body","no_answer","header_lost","body_ignored","trailers_refused"],"Proved for every stream on which `Says` is defined (it covers all well-formed responses, whatever the network's pieces). False of the code elsewhere, with runs as witnesses: cut_short, wild_write, used_buffer, refused_body, no_answer, header_lost, body_ignored, trailers_refused.")
c("C90","partial","Mb",["requests_sent","histories","gets_matched","not_sent"],"Proved over all histories for connections whose send_all reports success only if everything was sent (W); false otherwise (not_sent: the result 0 of a connection that sent nothing counts as success).")
c("C91","partial","Mb",["answers_matched","conversation","Says.det","gets_matched","leftover"],"Proved for peers that send the k-th response when they have received the k-th request, and whose responses are consumed to the end; after a malformed response the code keeps the connection and reads the rest of it as the next response (leftover).")
c("C92","proved","Mb",["objects_ordered","certificate_first","HTTPAPI_CreateConnection_spec","HTTPAPI_CloseConnection_spec","HTTPAPI_SetOption_spec","HTTPAPI_CloneOption_spec","histories","histories_run","sample_recorded"],"For clients that are not refused memory (`new` that fails ends the program), against the contract Mb.Honours of WolfSSLConnection.")
c("C93","proved","Wc",["life_spec","stream","honours","stack_run","construct_spec","destruct_spec","connect_spec","close_spec","send_spec","receive_spec","receive_idle","loadCertificate_spec","isConnected_spec","receiveCallback_spec","sendCallback_spec","demo_honours","stack_demo"],"Against the contract Wc.Honours of wolfSSL and lwIP.")
c("C94","partial","Wc",["sockets_closed","context_alive","context_left_partial","life_spec","session_left","failing"],"Sockets: proved. Context: never used after its release; but each failed handshake leaves a reference (context_left_partial, failing), and sessions are never released (session_left).")
c("C95","partial","Wc",["never_again","no_second_try","closed_again_partial","failing"],"False of the code: once connect failed with a socket at hand the object never connects again (never_again, for all lives). Proved: after close of a connected object, and after a failure to get a socket, connect starts afresh (closed_again_partial).")
c("C96","partial","Sw",["ledger","in_order_partial","histories_run","duplicates_bytes","refused_bytes","skips_bytes","wrong_connection"],"False of the code: after a partial send the whole buffer is sent again (duplicates_bytes), a refused send may have sent a part (refused_bytes), a failing queued buffer is skipped (skips_bytes), the queue survives close and is sent on the next connection (wrong_connection). Proved: the ledger of all buffers, and the order if the socket takes all or nothing and no queued buffer meets an error.")
c("C97","partial","Sw",["completes_once","completed_after_bytes","failure_reported","delivered","silent_loss"],"Proved: at most one completion per accepted send, never before its bytes are taken; refused sends call the error callback; received bytes are delivered once and in order. False: a queued buffer that meets an error is thrown away without any report (silent_loss).")
c("C98","proved","Sw",["histories","histories_run","refused_unless_open","idle_unless_open","close_reports","descriptors","all_closed","address_lists"],"Against the contract Sw.Honours of Winsock and the callbacks.")
c("C99","partial","Sw",["dowork_rounds_partial","never_returns"],"False of the code: while the socket is busy dowork tries again at once, for ever (never_returns). Proved: that, or bytes that keep arriving, are the only ways not to return.")
c("C100","partial","Sm",["ledger","in_order_partial","histories_run","duplicates_bytes","refused_bytes","wrong_connection"],"False of the code: after a partial send of a queued buffer its last bytes are sent again (duplicates_bytes), a refused send may have sent a part (refused_bytes), the queue survives close and is sent on the next connection (wrong_connection). Proved: the ledger of all buffers, and the order if no queued buffer is sent in part and no refused one was.")
c("C101","partial","Sm",["completes_once","completed_after_bytes","failure_reported","refused_after_failure","delivered","failure_hidden"],"Proved: at most one completion per accepted send, never before its bytes are taken; a connection that breaks under dowork is reported and sends are refused from then on; received blocks are delivered once and in order. False: an error of the first attempt, in socketio_send, is not reported, the send succeeds (failure_hidden).")
c("C102","partial","Sm",["histories","histories_run","refused_unless_open","idle_unless_open","close_reports","connections_partial","all_deleted_partial","lost_by_close","never_deleted","reopened","null_host"],"Against the contract Sm.Honours. Proved for clients that do not open an open handle and give host names. False: a handle that is closed does not delete its connection object (never_deleted; proved: these are the only ones), opening an open handle can lead to a method call of NULL (reopened), a NULL host name is dereferenced (null_host).")
c("C103","partial","Sm",["dowork_rounds_partial","never_returns"],"False of the code: a connection that takes nothing without an error is tried again at once, for ever (never_returns). Proved: that, or blocks that keep arriving, are the only ways not to return.")
c("C104","partial","Wh",["request_sent_partial","sent_once","connected_to","headers_passed","refused_not_sent","HTTPAPI_ExecuteRequest_spec","body_cut"],"Against the contract Wh.Honours of WinHTTP. Proved for bodies of less than 2^32 bytes; false for larger ones, of which only the length modulo 2^32 is sent (body_cut).")
c("C105","partial","Wh",["response_delivered_partial","untouched","no_failure","stale_body","hole_left","headers_missed","header_skipped"],"False of the code: the buffer keeps what it held before (stale_body), a piece shorter than announced leaves indeterminate bytes (hole_left), headers that WinHTTP does not give or for which there is no memory are missing although the result is HTTPAPI_OK (headers_missed, header_skipped). The rest is proved over all histories.")
c("C106","partial","Wh",["handles_balance","uses_open","users_held","left_open","sample_recorded"],"False of the code: HTTPAPI_CloseConnection after the last HTTPAPI_Deinit does nothing, so the connection is never closed (left_open). Proved: the balance of all handles, with exactly these left over, and no call on a handle that is not open.")
c("C107","partial","Wh",["histories","histories_run","nothing_lost_partial","lost_by_request","broken_only","demo_honours","left_open","line_lost","null_host","null_host_close"],"False of the code: connections closed after HTTPAPI_Deinit (left_open), the line of a refused response header (line_lost), and a host name that is NULL or cannot be converted, for which a handle that is no connection is returned (null_host, null_host_close). Proved: these are the only losses.")
c("C108","partial","Sock",["failure_reported","delivered","refused_after_failure","histories","histories_run","silent_hangup"],"Proved: each failing send is reported once, each received byte is delivered once and in order, sends are refused after a failure under socketio_dowork. False: a connection closed by the peer, or a failing recv, is not reported to anyone (silent_hangup).")
c("C109","partial","Sock",["dowork_rounds_partial","never_returns"],"False of the code: a queued buffer of which the socket takes nothing is tried again at once, for ever (never_returns). Proved: partial sends, or bytes that keep arriving, are the only ways not to return.")
c("C110","partial","Wce",["hook_returns","strict_partial","checked","refused","forged","hook_accepts","hook_refuses","hook_issuer","hook_demo","demo_chonours","SSLValidateCertHook_spec"],"SSLValidateCertHook of httpapi_wince.c on a contract of the CryptoAPI. The strict check compares issuer and serial number (CertCompareCertificate), not the certificate: forged is a run where a certificate with another key, that no store has, is accepted. What is proved: accepted only if a store has a certificate with the same issuer and serial number; one that is in an opened store is accepted; exact verdict for every setting")
c("C111","proved","Wce",["hook_tidy","SSLValidateCertHook_spec","hook_demo"],"holdAll replays the calls of the CryptoAPI: nothing is used or released that is not held, and nothing is held at the end")
c("C112","partial","Wce",["requests_sent_partial","no_answer_partial","never_connects","HTTPAPI_ExecuteRequest_spec","ensureConnected_spec","gets_matched","unknown_dead","unknown_run","success_unsent","cut_short"],"Against the contract Wce.Honours of Winsock. False of the code: when no connection is made the result is a variable that was never set, so HTTPAPI_OK is possible (success_unsent); a socket whose host was not found, or that could not be made secure, is kept and the handle never connects again (never_connects, unknown_run); a body cut short is a success (cut_short). Proved for results of that variable that say nothing was sent (hJ).")
c("C113","proved","Wce",["connections_secured","sockets_ordered","SSLInit_spec","ensureConnected_spec","send_dead","sample_recorded"],"connections_secured: to the created host, port 443, option strict, right after secure, hook and tls succeeded; send on a socket that is not connected fails by the contract (dead)")
c("C114","partial","Wce",["answers_matched_partial","conversation","exchange_spec","gets_matched","sample_recorded"],"Proved under hJ and if no request failed while it was sent; that a failed request misaligns is inherited from httpapi_mbed.cpp (Mb.leftover).")
c("C115","partial","Wce",["histories","histories_run","sockets_closed","sockets_ordered","HTTPAPI_CreateConnection_spec","HTTPAPI_CloseConnection_spec","HTTPAPI_Init_spec","HTTPAPI_Deinit_spec","HTTPAPI_CloneOption_spec","wsa_honours","sample_recorded","dotted_overflow","dotted_name","no_answer"],"False of the code: a host that begins with three numbers and points between them overflows address[4] (dotted_overflow, dotted_name), and a connection closed before the answer uses bytes never written (no_answer). Proved for all other hosts and peers whose answers can be read (Served).")
c("C116","partial","Plat",["win32_meets","mbed_meets","linux_meets","stub_meets","histories","winsock_counts","mbed_init_result","mbed_link_partial","works_honours","shared_link","nested_winsock","alternate_demo"],"Windows: proved. mbed: false when the platform is initialised by two modules, the first platform_deinit disconnects both (shared_link); proved if calls alternate, and that a failed platform_init leaves nothing connected.")
c("C117","partial","Curl",["calls_asked","created_by","client_request","sample_sent","get_becomes_post","blank_dropped","Verif.Ex.calls_asked","Verif.Ex.created_by","Verif.Ex.client_request","Verif.Ex.bounds_reached","Verif.Ti.calls_asked","Verif.Ti.client_request","Verif.Wh.calls_asked","Verif.Wh.client_request","Verif.Wh.body_cut","Verif.Mb.calls_asked","Verif.Mb.text_asked","Verif.Mb.client_request","Verif.Mb.gets_matched","Verif.Wce.calls_asked","Verif.Wce.client_request"],"Proved for every history. Partial only because three backends deviate, and then the theorem says what is sent: on libcurl a GET with content becomes a POST (get_becomes_post) and headers with blank values are dropped (blank_dropped), on WinHTTP bodies are cut at their length modulo 2^32 (body_cut).")
c("C118","proved","Sock",["historiesC","historiesC_run","doworkC_spec","sendIn_spec","sends_in_order","told_in_order","completions_in_order","stream_in_order","completions_of_accepted","flow_run","flow_smooth","flow_stream","chats","demo_honours"],"Every client that sends from its completion and receive callbacks (Client: any function from callbacks to messages; nest: to any depth). historiesC: defined, returns, all memory accounted for, steps as stepC says; completions_in_order: over every history, per handle; stream_in_order: the bytes, as long as dowork meets no failing or partly accepting socket (otherwise C47 fails); sends_in_order: while the socket takes messages whole. What parts of messages the socket sees when it takes them partly is C47. chats: a run with sends from both callbacks.")
c("C119","partial","Sock",["quiet_after_close_partial","quiet_client_partial","closed_in_callback","closed_after","ended_in_dowork","ended_in_send","wrong_connection","demo_honours"],"False of the code when the close happens in a completion callback called by socketio_dowork: the loop goes on with socket -1, calls the error callback and leaves the handle in the error state in which it cannot be opened (closed_in_callback). Destroying the handle in such a callback is undefined behaviour (ended_in_dowork). Proved for closes outside callbacks, also for clients that send in their callbacks (quiet_client_partial). Hypotheses are met by the run of wrong_connection (close, then open).")
c("C120","proved","XS",["as_itself","through","through_end","histories","exec_spec","sock_create","sock_destroy","sock_open","sock_close","sock_send","sock_dowork","sock_setoption","demo_report","demo_good","demo_through"],"A history through xio is a history on the socket IO itself with the same record of system calls and callbacks (the result of dowork, whether its loops ended, is not seen through xio); ledger and descriptor theorems of the socket IO then apply. Not covered: callbacks that call back into the handle (C117-C119 are about the socket IO itself), xio_setoption within histories (sock_setoption says that it fails and changes nothing).")
#END
json.dump({"claims":C},open('/verif/MANIFEST.json','w'),indent=1)
names=[t for x in C for t in x["theorems"]]
open('/tmp/ax.lean','w').write("import Verif\n"+"".join(f"#print axioms {n}\n" for n in dict.fromkeys(names)))
