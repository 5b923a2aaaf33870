# Formal model of azure-c-shared-utility in Lean 4

This file says what is modelled,
how each property is proved, and what has to be trusted.

## 1. Trusted base

* Lean 4.33.0's kernel, and the three standard axioms `propext`, `Classical.choice`, `Quot.sound`
  (`#print axioms` of every claimed theorem shows a subset of these; no axiom is added, no compiled
  evaluation is used).
* The reading of the C source into the model: every definition cites `file:lines` of `/repo` and lists
  its simplifications.  No C code is executed.
* The C semantics used by the model (`Verif/Mem.lean`):
  - memory is a finite set of live blocks, a block is a sequence of *slots*, a slot holds a byte, an
    integer, a pointer, or is indeterminate.  A struct is a block with one slot per field, a `char` array
    is a block with one slot per byte, a `char**` array is a block with one slot per pointer.
    Type punning between these is undefined behaviour.
  - access outside a live block, double free, use of indeterminate values, `realloc(p,0)`,
    overlapping `memcpy`: undefined behaviour (`Err.ub`), a distinct outcome that theorems exclude.
  - the allocator is an arbitrary strategy: it may refuse any request and may return any address that is
    not currently live (so address reuse is covered).  It always refuses requests larger than 2^56 bytes
    (more than any user address space; this keeps `size_t` sums of a few object sizes from wrapping).
  - `size_t` arithmetic is modulo 2^64 wherever the code's arithmetic can wrap.
* Library functions of the C runtime (`memcpy`, `strlen`, `strcmp`, `strchr`, `malloc`…) are modelled by
  their standard contract; operating-system and third-party calls (sockets, OpenSSL, pthreads, `time`,
  the HTTPAPI transport) are environment oracles: the theorems quantify over all their answers.
* **TLS IO environment** (`Tls/Model.lean`, policy `std`): OpenSSL and the allocator give any answer of the
  right form (`valid`: a read of at most n bytes returns at most n bytes, an allocation returns NULL or an
  address that is not alive) but do not call back into the TLS IO; `xio_send` without a completion callback
  does not call back; `tlsio_openssl_destroy` is not called from inside a callback of that module; handles
  passed in are NULL or alive; buffers are smaller than 2^56 bytes.  User callbacks, `xio_open`, `xio_close`,
  `xio_dowork` and `xio_send` with a callback may call any function again, to any depth.
* **wolfSSL TLS IO environment** (`Wolf/Model.lean`, policy `std`): as above, with these differences: wolfSSL may
  call back (`on_io_recv`, `on_io_send`, `on_handshake_done`, or anything else) while it connects, reads or
  writes; the lower IO does not deliver empty chunks; `realloc` refuses 2^56 bytes and more.
* **Not modelled**: `httpapi_curl.c` on libcurl's side (a contract), TI's HTTPCli (a contract), wolfSSL and lwIP under `wolfssl_connection.cpp` (a contract; mbed's class `TCPSocketConnection` is modelled after its source, that is not in the repository), WinHTTP under `httpapi_winhttp.c` (a contract), the HTTP adapters `httpapi_wininet.c` (it calls `HTTPHeaders_GetHeader` with a signature that no longer exists), Winsock under `httpapi_wince.c` (a contract), `platform_get_default_tlsio` (`uniqueid_stub.c`'s model is C53's; `tickcounter_tirtos.c` is the same text as `tickcounter_linux.c`), and everything listed as such
  in the comments of the single modules.
* Logging macros (`LogError` …) are omitted everywhere (no effect on state).

## 2. Technique

* **Memory-level modules** (buffer, strings, map, constmap, constbuffer, list, doublylinkedlist, vector,
  string_tokenizer, httpheaders, …): each C function becomes a monadic Lean function, statement by
  statement, over the memory model.  Properties are total-correctness separation-logic triples with an
  implicit frame: *from every state containing the representation and anything else, the call ends, without
  undefined behaviour, in a state containing the described representation and the same anything else*.
  Because the logic is linear, a triple whose postcondition owns no new memory is a leak-freedom statement.
  A flag `rel` says whether the allocator may refuse; "fails only if the allocator refused" is the
  statement for the reliable allocator.  History properties are inductions over arbitrary operation lists.
* **Pure algorithms** (base64, urlencode, sha*, hmac, number conversion, uuid text): functional model on byte lists
  or bit vectors, compared with an independent specification transcribed from the standard (RFC 4648,
  RFC 8259, FIPS 180-2, RFC 2104).
* **State machines** (httpapiex, httpapiexsas, socketio, tlsio, xio, gballoc): step functions that take the environment's
  answers as input and emit an event trace; properties are invariants over all histories.
* **Concurrency** (gballoc lock, reference counts, shared SHA temporaries): interleaving transition systems.
* Where the code violates the stated property, the negation is proved with a concrete witness and the part
  that does hold is proved with the suffix `_partial`.

## 3. Plan per property

| id | model | proof |
|----|-------|-------|
| C01–C03 | buffer.c over memory model | triples per function; history refinement to `List UInt8`; delete returns the memory |
| C04–C05 | strings.c over memory model | same, refinement to C strings |
| C06 | STRING_new_JSON (two passes) | independent RFC 8259 string grammar/decoder, exact allocation size |
| C07 | STRING_compare / strcmp | order laws for all byte strings |
| C08–C09, C11 | map.c over memory model | triples; refinement to association list; failure atomicity |
| C10 | same | negation by witness (filter dropped when the map becomes empty), partial for non-empty histories |
| C12 | Map_ToJSON on top of strings model | independent JSON object parser |
| C13–C14 | constmap.c, constbuffer.c, refcount.h | triples; history over clones; interleaving of DEC_REF |
| C15–C16 | list.c | linked-list predicate, triples |
| C17 | doublylinkedlist.c | ring predicate, triples |
| C18–C19 | vector.c | triples; C19 by negation witness, partial for in-range accessors |
| C20–C22 | base64.c | RFC 4648 spec by bit regrouping; round trip; C22 negation + partial |
| C23 | urlencode.c | per-byte spec, decoder, injectivity, exact fill |
| C24–C25 | string_tokenizer.c | specification by splitting; C25 negation + partial |
| C26–C27 | crt_abstractions.c | array-level model, positional decimal spec |
| C28–C29 | httpheaders.c | on top of the map model |
| C30–C31 | gballoc.c, lock_pthreads.c | globals are one heap block; tracking records are heap blocks linked in a list (separation logic); history of an adaptive client against a table of live blocks; sum and high-water mark over the trace; negation for deinit with live blocks |
| C32 | gballoc.c | interleaving model: each critical section is one atomic step, the unlocked head read is its own step; negation (head read before lock) + partial under a guard that the head does not move in between |
| C33–C36 | sha1.c, sha224.c, sha384-512.c, usha.c | one streaming engine (the three files are textually the same there) with checked array accesses, `ProcessMessageBlock` per file; bit-level FIPS 180-2 specification written from the standard; invariant relating context and message so far, induction over the history; threads are programs of atomic actions on their own context and the shared `addTemp`, race negation + partial |
| C37–C38 | usha.c, hmac.c, hmacsha256.c | pure state-passing model of the contexts (arbitrary initial contents), RFC 2104 written from the standard over the bit-level FIPS specification; `HMACSHA256_ComputeHash` on the heap model with the conversions to `int` exact, truncation negation + partial |
| C39 | sastoken.c | heap model; composition of the contracts of base64, strings, buffer, hmacsha256, urlencode; the handles may coincide (`Access`); leak negation + partial |
| C40–C44 | httpapiex.c | memory model of all functions on top of the models of strings, buffer, httpheaders, vector and crt_abstractions; the functions of httpapi.h are parameters with a contract over a call trace (Ex/Spec.lean `Honours`: sessions and connections are linear rights, option copies are fresh blocks, requests are only read, responses are written); loop invariant for the retry loop (Ex/Loop.lean, `Fresh`/`Retry`: what is tried from an idle and from a connected handle); histories over a table of handles with arguments of every NULL combination (Ex/History.lean); protocol automaton, balance, truthfulness, options and headers as invariants over the record of calls (Ex/Ledger.lean); a transport meeting the contract and computed runs that reach the bounds (Ex/Demo.lean). `temp` and `dummyStatusCode` are given by address; one thread |
| C45 | httpapiexsas.c | memory model on top of sastoken, httpheaders and httpapiex; the clock is a parameter with a contract over its readings; exact double conversion; histories with two tables of handles; negation for early clocks + partial (base64 keys, lost block of C39) |
| C46 | xio.c | memory model; the concrete IO functions are parameters with a separation-logic contract over an abstract trace resource (World.lean, Xio/Spec.lean `Honours`); histories over a table of handles |
| C47, C48, C57, C58 | socketio_berkeley.c | memory model of create/destroy/open/close/send/dowork with the pending list in the heap; system calls and callbacks are parameters with a contract over a trace (Sock/Spec.lean `Honours`; `Fd`, `Ai` are linear rights to descriptors and address lists); loops of dowork bounded by a round count with the result telling whether they ended, for every bound; histories over a table of handles; the send ledger (Sock/Ledger.lean) is an invariant per handle. C47 and C57 are false as stated: runs of the model on a system meeting the contract (Sock/Demo.lean) and `_partial` theorems. Sends from callbacks are in C118, closing in a callback in C119. Not modelled: other re-entrant calls (destroy, open or dowork inside a callback), setoption beyond its constant result |
| C49 | tlsio_openssl.c (`Tls/*`, engine `Game.lean`) | Open system: each function is a program of a free monad (read/write the instance, call out); a machine keeps a stack of interrupted programs, so that every call out to user code or to the lower IO may re-enter any function of any TLS IO, to any depth. A play is a sequence of moves (enter, silent step, answer). The log of all entrances, calls out, answers and returns is what the properties speak of; `Spec.lean` defines from the log alone what phase a TLS IO is in. Proof: rely-guarantee weakest preconditions per function (`Props`, `Funcs`, `Life`), lifted to all plays by `Sound.reach`; theorems over all reachable machines in `Claim.lean`; concrete plays and counterexamples in `Demo.lean` |
| C59 | the same | each call out that carries bytes is preceded in the log by the event that produced exactly these bytes; each answer with bytes is followed by passing them on |
| C60 | the same, `Tls/Ledger.lean` | double-entry books over the log: a function that is interrupted balances to 0 at each call that may re-enter (`Bal`), functions which do not balance are shut (`Shut`: nothing re-enters); `Reach.booked` gives held = owned + known leaks for all plays |
| C61 | the same | as C49; the false parts as concrete plays |
| C62 | tlsio_wolfssl.c (`Wolf/*`, engine `Game.lean`) | as C49: open system with re-entrance to any depth (wolfSSL itself calls back while it connects, reads and writes); the receive block is part of the instance, reads of unwritten bytes and accesses outside it are undefined behaviour. Stream law by induction over the log: accepted = fetched ++ pending |
| C63 | the same | as C59 |
| C64 | the same | as C61; the false parts as concrete plays (`Wolf/Demo.lean`) |
| C65 | the same, `Wolf/Ledger.lean` | as C60; the receive blocks by induction over the log, at every moment |
| C66–C70 | httpapi_curl.c (`Curl/*`) | memory model of all functions and of the two callbacks, on top of the models of httpheaders, buffer and crt_abstractions; libcurl is a parameter with a contract over its call trace (`Curl/Spec.lean` `Honours`): `curl_easy_perform` is split at its callbacks; the effect of the options on the request that is sent (`cfg`, `Cfg.request`) is part of the specification, and so is what libcurl does with them (documented in its manual: a header `Name: ` without value is not sent, `CURLOPT_POSTFIELDS` changes the method to POST, …). Histories over a table of connections (`HSpec`, `History`); the theorems are read off the record (`Ledger`). The two memory areas passed by the caller are disjoint. Assumption `Room`: memory for a second and later piece of a response body is not refused (otherwise the code releases twice: `released_twice`). The client of the histories does not use handles that are no connections (`null_handle`) |
| C50, C56 | condition_pthreads.c | memory model; pthread and clock functions are parameters with a contract over a call trace; C56 negation + partial |
| C71, C72 | lock_pthreads.c, condition_pthreads.c (`Sync/*`) | transition system of any number of threads: each function is a program that calls the operating system, any thread may step between two such calls; mutexes with owner, sleeping and woken threads (`Sync/Model.lean` `Step`). What callers have to observe (`Allowed`), who holds a lock, what is alive are read off the record of calls and returns (`Sync/Spec.lean`). Inductive invariant over all reachable states (`Inv`, `Step`, `Kept`), claims in `Claim` and `Wake`, a concrete schedule in `Demo`. Simplified: deadlines are not represented (a timed wait may time out at any moment; the deadline is C50), pthread_cond_init succeeds (C56), failing mutex functions have no effect |
| C73 | lock_c11.c, condition_c11.c, lock_win32.c, lock_rtx_mbed.cpp (`Sync/Ports.lean`) | each port's functions as programs on the machine of C71/C72; a simulation shows that every execution of a port is one of the pthreads machine with the same record, so every claim about records carries over (`port_*`); a concrete schedule per port. mbed's condition variables are stubs |
| C74 | tickcounter_win32.c (`Tick/Win32.lean`) | pure model of the performance-counter branch; induction over histories. Partial: the remainder of every division is lost, so the value lags by up to one microsecond per call without bound (`falls_behind`); readings far apart overflow (`overflow_ub`) |
| C75 | threadapi_win32.c (`Thr/Win32.lean`) | explicit machine of threads and open handles, inductive correspondence with the specification over all histories. Partial: a refused thread is reported as success (`refused_is_ok`: the code tests the wrong pointer) |
| C76 | threadapi_c11.c (`Thr/C11.lean`) | memory model; histories and schedules as in C51 |
| C77 | threadapi_rtx_mbed.cpp (`Thr/Mbed.lean`) | transition system over the static table of slots; invariant over all reachable states. Partial: handles shared when threads are created in quick succession (`shared_handle`), a function that returns cannot be joined (`returned_never_joined`), four threads per program (`only_four`) |
| C78 | condition_c11.c (`Cond/C11.lean`) | arithmetic of the deadline. Partial: whole seconds only, so up to one second early (`early`) |
| C79 | tlsio_schannel.c (`Schan/*`, engine `Game.lean`) | as C62: open system with re-entrance to any depth; SSPI, the lower IO and the allocator answer anything allowed by `valid`. Stream law by induction over the log: accepted = used ++ waiting; undefined behaviour (uninitialised fields, accesses outside the receive block) is excluded by the invariant of the instance |
| C80 | the same | as C63; a send in progress is described by the frames of the log (what it was called with, what has been sent) |
| C81 | the same | as C64; the false parts as concrete plays (`Schan/Demo.lean`) |
| C82 | the same, `Schan/Ledger.lean` | as C65; credential handles and blocks by induction over the log at every moment, the rest whenever no function is in progress |
| C83 | tickcounter_mbed.cpp (`Tick/Mbed.lean`) | arithmetic modulo 2^32 and 2^64, induction over the history of readings. Partial: up to 1 ms is lost at every reading, without bound (`falls_behind`), and readings more than 2^32/1000 ticks apart lose time (`gap_lost`) |
| C84 | uniqueid_linux.c, uniqueid_win32.c (`Uid/Ports.lean`) | separation-logic triples against a contract of libuuid and the RPC runtime. Partial: on Windows `len` bytes are copied from a 37-byte text, undefined for `len` > 37 (`Win32.overread`) |
| C85 | httpapi_tirtos.c (`Ti/`) with the real models of httpheaders.c and buffer.c | separation-logic triples against a contract of TI's HTTPCli (`Ti/Spec.lean: Honours`), histories with a record of the calls that reached the library, induction over the record; a library that meets the contract and a computed run (`Ti/Demo.lean`) |
| C86 | same | read off the record of any history. The fields are sent in the reverse order of the object (names in an object are distinct, so HTTP gives them the same meaning); the theorem states that order |
| C87 | same | read off the record. Partial: failures while the body is read are not reported (`masked_failure`, `masked_refusal`); a buffer that was not empty keeps its size and gets indeterminate bytes (`stale_tail`) |
| C88 | same | blocks lost are part of the state (`Lost`). Partial: a header line that cannot be enlarged is lost (`line_lost`); nothing else ever is |
| C89 | `Mb/`: `httpapi_mbed.cpp` function by function (reading of lines, chunks, headers, bodies byte by byte) on a `WolfSSLConnection` given by a contract (`Honours`: `receive` returns any non-empty piece of what is there) | `Says fin c s y`: what is made of the byte stream `s`, defined without pieces; `HTTPAPI_ExecuteRequest_spec` shows the code computes it for all ways of cutting; `plain_read`, `chunked_read`, `bare_read`: on well-formed responses it is the response. Partial: the property is false in eight ways (witness runs) |
| C90 | same, histories | `requests_sent` from `conversation` (induction over the history). Partial: false if `send_all` reports success without sending (`not_sent`) |
| C91 | same, histories | `answers_matched`: induction along the conversation with determinism of `Says`. Partial: false after a malformed response (`leftover`) |
| C92 | same, histories | `objects_ordered` (automaton over the calls that reach the object), `certificate_first`, specs of create/close/options; separation logic accounts for memory |
| C93 | `Wc/Model.lean` (`wolfssl_connection.cpp`; wolfSSL and lwIP are the contract `Wc.Honours`, the base class `TCPSocketConnection` of mbed is modelled) | specs of all methods; `life_spec`: every life of an object follows `Lives`; `stream`: induction over lives; `honours`: the class meets `Mb.Honours`, so `stack_run` is C89–C92's run over both files |
| C94 | same | `sockets_closed` (automaton over the socket calls), `context_alive` (references counted as wolfSSL does); what is left: `context_left_partial` (one reference for each failed handshake, all sessions); `session_left` is a run |
| C95 | same | false of the code: `never_again` (for all lives), `no_second_try` (a run); what holds: a failure before there is a socket leaves the object as it was (`Connected.noSocket`) and objects that were closed connect again (`closed_again_partial`) |
| C96-C99 | socketio_win32.c | `Sw/Model.lean` function by function, over the memory model, with Winsock and the callbacks as parameters (`Sw/Spec.lean`, `Honours`); histories over a table of handles (`histories`), what they imply is read off the record (`Sw/Ledger.lean`): the life of every buffer, descriptors, address lists, registered callbacks. Loops of dowork take a round count, for every count. False as stated, by runs (`Sw/Demo.lean`): C96 (`duplicates_bytes`, `refused_bytes`, `skips_bytes`, `wrong_connection`), C97 (`silent_loss`), C99 (`never_returns`: a loop without waiting while the socket is busy) |
| C100-C103 | socketio_mbed.c, tcpsocketconnection_c.cpp | `Sm/Model.lean` function by function, over the memory model, with mbed's class `TCPSocketConnection` and the callbacks as parameters (`Sm/Spec.lean`, `Honours`); histories over a table of handles (`histories`), read off the record (`Sm/Ledger.lean`): the life of every buffer, connection objects, registered callbacks, failures. The clients of the histories do not open an open handle (what happens then: `reopened`) and give host names (`null_host`). Loops of dowork take a round count, for every count. False as stated, by runs (`Sm/Demo.lean`): C100 (`duplicates_bytes`, `refused_bytes`, `wrong_connection`), C101 (`failure_hidden`), C102 (`never_deleted`, `reopened`, `null_host`), C103 (`never_returns`) |
| C104-C107 | httpapi_winhttp.c | `Wh/Model.lean` function by function, over the memory model and the models of httpheaders.c and buffer.c, with WinHTTP and the conversions between code pages as parameters (`Wh/Spec.lean`, `Honours`; a text or response header has less than 2^31 characters, every response ends); histories over a table of connections (`histories`), read off the record (`Wh/Ledger.lean`: handles; `Wh/Claims.lean`: requests, responses, memory). The clients of the histories do not use a handle that is no connection (`null_host`, `null_host_close`). False as stated, by runs (`Wh/Demo.lean`, `Wh/Cut.lean`): C104 (`body_cut`), C105 (`stale_body`, `hole_left`, `headers_missed`, `header_skipped`), C106 (`left_open`), C107 (`left_open`, `line_lost`, `null_host`) |
| C108, C109 | socketio_berkeley.c | the model and contract of C47; the rounds of both loops of dowork are counted in the specification (`SendLoop k`, `RecvLoop o k`); `Sock/Told.lean` is an invariant over the record of each handle: who was registered, what each call reported. False as stated: `silent_hangup`, `never_returns` (`Sock/More.lean`, which also has `wrong_connection` for C47) |
| C110, C111 | `Wce/Hook*`: `SSLValidateCertHook` of httpapi_wince.c (the loops over stores and certificates, `g_SslOptions` as a cell) on a contract of the CryptoAPI (contexts and stores are owned; `CertCompareCertificate` compares issuer and serial number, as documented) | induction on the certificates left in a store and on the stores left; a replay of what is held (`holdAll`); a run where a forged certificate is accepted |
| C112–C115 | httpapi_wince.c: creating, closing, requests, `SSLInit`, on a contract of Winsock (`Wce/Spec.lean`, `Honours`: a socket is owned, a connection is a stream of the peer, a variable that is not set holds something that satisfies `J`); sending and reading have the text of httpapi_mbed.cpp and are its functions on `send`/`recv` (`Mb.Stream`) | triples of every function (`Wce/Calls.lean`), histories as a run of a specification (`Wce/History.lean`), invariants over the record of each handle (`Wce/Ledger.lean`). False as stated: `success_unsent` (the result is a variable that was never set), `unknown_run`/`never_connects` (a socket that failed is kept for ever), `dotted_overflow` (host names that begin with three numbers overflow an array), `cut_short`, `no_answer` (inherited from httpapi_mbed.cpp); all in `Wce/Demo.lean` |
| C116 | `Plat/*`: platform_win32.c, platform_mbed.cpp, platform_linux.c, platform_stub.c on an operating system of which any call may fail | triples of each function, histories as runs, induction on the history (counts of Winsock, state of the network). False of mbed: users are not counted (`shared_link`) |
| C117 | the whole path from the client's operations to the record of the platform library, for `Curl`, `Ti`, `Wh`, `Mb`, `Wce`, `Ex` (`*/Client.lean`): the client makes header objects, buffers and strings with the modelled functions of the library and passes them | `calls_asked`: the record is, element by element (`Matched`), the list of the operations for which a call was made, with arguments and results; `created_by`: positions of handles; `client_request`: with the theorems about each backend (C44, C66, C86, C90, C104, C112) and `Ti.built_all` (headers added one by one). Where a backend deviates (GET with content, blank headers, bodies of 2³² bytes) the theorem says what is sent instead |
| C118 | `Sock/Again*`: socketio_send and socketio_dowork of socketio_berkeley.c with callbacks that call socketio_send on the same handle (`nest`: the system of the contract, whose completion and receive callbacks then run the sends of a `Client`, nested to any depth `d`) | triples by induction on the depth and on the rounds of the loops: while a message is being completed it is still at the head of the list, so that a send in its callback is queued and the loop goes on to it; relations `SendIn`, `SendLoopC`, `RecvLoopC` describe the results; histories over a table of handles; the order of completions is an invariant per handle (`Fifo`). Simplifications: what a client sends depends on the callback, its context and the received bytes, not on a state of its own; the buffers it passes are its own memory (literals); results of sends in callbacks are not looked at |
| C119 | the same file | false for a close in a completion callback: computed run on a system meeting the contract (`closed_in_callback`), also for destroying there (`ended_in_dowork`: use of freed memory); for closes outside callbacks invariant over histories (`Quiet.lean`; `AgainQuiet.lean` for clients that send in their callbacks) |
| C120 | xio.c over socketio_berkeley.c | the model of xio.c with the functions of the model of socketio_berkeley.c at the addresses of its interface description (Xio/Socket.lean; the addresses xio passes on stand for the client's configuration and buffer); a refinement: each call through xio does what the call on the socket IO does, so a history through xio is a history on socket IO handles with the same record (`as_itself`, `through`), to which the theorems of C48 and C58 apply (`through_end`) |
| C51 | threadapi_pthreads.c | explicit operating-system machine of threads; invariant over all histories of calls and scheduler steps |
| C52 | tickcounter_linux.c | clock as parameter with contract, exact double arithmetic; histories; clock going back: negation + partial |
| C53, C55 | uniqueid_stub.c | random source as parameter; text layout, injectivity; C55 negation (version digit) + partial |

No property on the list is outside what an executable model can express; where the runtime matters (C32, C36, C50, C51)
the model covers the logic and the note in MANIFEST.json says what is left out.
