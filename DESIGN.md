# Formal model of go808 (JT/T 808 protocol server)

The Go source in `/repo` is modelled by hand in Lean 4, function by function, and the
properties of `properties.jsonl` are proved about that model.

## Layout

| directory | content |
|---|---|
| `lean/Verif/Model/` | the model: total, computable Lean functions; each definition cites the Go file and lines |
| `lean/Verif/Spec/` | small specifications that do not use the model's helpers |
| `lean/Verif/Lemmas/` | helper lemmas |
| `lean/Verif/Props/` | the property theorems, with a concrete `example` beside each |
| `seeded/LOG.jsonl` | log of experiments with wrong programs |
| `tools/` | `manifest.py` builds MANIFEST.json from `notes.json` and the theorem names; `mutate.py` runs the experiments |

Theorems are named after their property: `C12_…`. `Cxx_refuted…` is a proved negation (the property is false of the
code, with a concrete witness), `Cxx_…_partial` a proved part of such a property.

## Modelling conventions

* A Go call returns `Res α`: `ok`, `err e` (the returned error) or `panic` (run-time panic).
  Every slice/index expression that could be out of range is modelled by an operation that yields `panic`.
* `[]byte` and `string` are `List UInt8`; integers have Go's widths where wrap-around matters.
* `protocol.Reader` is a state monad over the unread bytes; `protocol.Writer` is list append.
* Body encoders return the bytes and the receiver after the call, because some encoders modify it
  (`T808_0x0200` sets hemisphere bits, ...). Body decoders take the receiver's previous value.
* Goroutines are state machines whose atomic steps are the code's critical sections / atomic operations;
  theorems quantify over all finite step sequences.
* External code is a parameter (see trusted base).

## Plan per property

| id | modelled | proof idea |
|---|---|---|
| C01 | Message.Encode/Decode over an abstract body codec; instantiated with all body types | composition of escape, checksum, header, body round trips |
| C02 | Message.write, PrefixID framing | induction on the bytes |
| C03 | checksum and unescape loop | XOR algebra: one changed byte changes the XOR |
| C04 | same; streams, servers and storage through C12, C87 | false: witness frame; exactly which changes pass; for whole streams, delimiters included, no wrong body is delivered or stored |
| C05 | Decode with panicking index | false: `7e x 7e`; exact characterisation of the panicking inputs |
| C06 | uint16 conversion + SetBodySize | false above 65535; exact characterisation |
| C07, C08 | Header codec, stringToBCD, bcdToString, FormatUint/ParseUint | digit-list induction; C08 false at 0 and from 10^12 |
| C09 | property.go on UInt16 | bit extensionality |
| C10, C11 | Message.Decode with registry | case analysis over the decoder |
| C12-C14 | ProtocolCodec.Receive over a list of reads | induction over reads, with the pending partial frame as invariant |
| C15, C16, C17, C47, C48 | all registered bodies | per-type theorem, reader/writer simp lemmas, list induction; negations by witness |
| C18, C19 | extras | induction over the extras list; C19 false (witness) |
| C20, C21 | decimal coordinates, getGeoPoint, hemisphere bits | integer truncation; C21 false for mixed hemispheres |
| C22, C23 | civil calendar with fixed UTC offset, BCD | calendar inverse theorem; C22 false for 2000-2009; C23 false for hour 0 |
| C24, C25, C26 | Writer.Write/WritString, params.go, bit.go | list and bit lemmas |
| C27, C28 | bytesSplit, EncryptOAEP, DecryptOAEP with an abstract block cipher | strong induction on length |
| C29 | nextID as load / compare-and-swap steps of many goroutines | invariant over all schedules |
| C30, C31 | request table, Request/message steps | invariants over histories; C31 false (schedule witness) |
| C32, C33, C43, C46, C49 | HandleSession loop as a step function emitting effects | induction over message list; C33 false; C32 also from the bytes of any frames (with C12, C70, C71) |
| C34, C35, C50 | timer.go including container/heap on a pointer store | heap invariant, refinement to a key->deadline map; C34 false for sums that do not fit an int64, C35 for overlapping updates of one key |
| C36, C37, C38 | server session map, close protocol | invariants over all interleavings |
| C39-C42, C44 | multipart files as a directory of named byte strings | decimal name injectivity, sorted concatenation; C41, C42, C44 false (witnesses) |
| C45 | Session.Send, ProtocolCodec.Send | false: the session never sets the encryption flag |
| C51 | receive loop on top of the codec (`Model/Connection.lean`) | composition of C05, C12-C14, C32; false: `7e x 7e`; exact set of crashing streams |
| C52 | all registered bodies against a table of fields (`Spec/Layout.lean`) | per-type equality of encoder output and table, decoder by the round trip |
| C53 | encoders as functions that also return the receiver | per type: the receiver afterwards encodes to the same bytes; false for 0x0801 (reader consumed) |
| C54 | T808_0x0200.Encode sets hemisphere bits and never clears them | false: witness; partial for reports that stay in their hemisphere |
| C55, C56, C57 | link's send queue and send loop around ProtocolCodec.Send (`Model/Outbox.lean`) | invariant: wire = frames of a prefix of the accepted messages; in runs without end (`Lemmas/OutboxFair.lean`) each turn of the send loop takes a waiting message; C56, C57 false (witness schedules) |
| C58 | Request, the terminal's answer, Receive, message() | composition of C12, C30, C31 and the round trip |
| C59 | rootDir and file names as byte strings; receive loop | components of the paths, injectivity; induction over histories |
| C60 | Run/Stop and NewServer as a state machine | case analysis; false: Run after Serve failed |
| C61 | all encoders | per-type absence of panics; exact characterisation for messages |
| C62 | corollary of C01 and C12 | injectivity from the round trip |
| C63 | request table | invariant: one entry per message id; from outside: number of callbacks that can still run |
| C64 | files after completion | false: nothing is ever deleted; exact set of files left |
| C65, C66 | as C55 | C65 false (witness schedule); invariants |
| C67 | as C29, C30 | false: serial numbers are used again after 255 messages; proved for the first 255, and for sessions of any length in which no number is handed out while it is in use (invariant: at most one call or waiting request has a number) |
| C68 | as C16, plus postconditions of every decoder (`Rd.Post`) | false: ten accepted bodies do not survive, and decrypted messages keep the encryption flag; proved under the conditions of `Spec/Relay.lean` |
| C69 | receive loop with the steps of other goroutines at every point where it looks at shared state | two-run simulation: the file systems agree on the own uploads |
| C70 | body decoders of all types; `Spec/Accepts.lean` is a grammar of the accepted bytes | each reader is shown to fit its production (`Rd.Fits`), composed type by type |
| C71 | Message.Decode; `Spec/Receive.lean` says what a frame with given header and body is | inversion of the envelope and header decoders, then C70 for the body |
| C72 | Session.Send, the codecs and the receive loop with the part storage, from the bytes of the terminal to the handler (`Spec/Transfer.lean`, `Spec/Upload.lean`) | C12 gives the received messages, C41 the merged one; the parts as sent correspond to the parts as received |
| C73 | the upload loop of `example/client/client.go` (`Model/Example.lean`) | induction over the parts for multiples of 512 bytes; counterexamples for other lengths |
| C74 | the receive loops of all connections as one state machine over the shared storage, handlers and request tables (`Model/System.lean`) | simulation: an invariant rebuilds, from any interleaving, a run of the single loop with steps of others in between; so every claim on the single loop holds for each connection |
| C75 | as C74, with terminals as in C72 | composition of C74 and C72; that no other connection touches the upload is derived from the messages the others receive |
| C76 | a session whose handlers and callbacks are programs of calls on it, with results they can look at (`Model/Converse.lean`); the handlers of the example server are such programs (`Model/Programs.lean`) | the specification (`Spec/Converse.lean`) counts messages, keeps a table of requests and a history of stored parts; simulation by induction over the messages; from bytes to bytes with C12 |
| C77 | the example server and the example client as functions from the bytes read to the bytes sent (`Model/Programs.lean`), connected by two byte streams (`Spec/Programs.lean`: `Reach`, `Settled`) | both are monotone and bounded by the bytes of the expected conversation: invariant by induction over the arrivals (`Lemmas/Network.lean`), and in a course without end (`Spec.AllArrives`) the number of bytes that have arrived stays the same at some time; the conversation itself with C76 (`Lemmas/ExampleTalk.lean`), the bytes with C01 and C12 |
| C78, C79 | the whole server: the life of the sessions with timer and registry (`Model/Server.lean`) and the receive loops (`Model/System.lean`) as one state machine (`Model/World.lean`) | both false: witnesses. Projection of every run to runs of the two parts, so that C36, C37, C50 and C74 carry over; invariants on what was observed of one session (`Lemmas/WorldRun.lean`) |
| C80, C81 | `multipart.go` system call by system call, for any number of goroutines (`Model/Files.lean`); what is observed (`Spec/Files.lean`) | C80 false: witnesses. Rely-guarantee style invariant for one upload: every job knows what it relies on, and a step of another goroutine can change it only if the two calls conflict (`Lemmas/FilesTurn.lean` to `FilesRun.lean`); C81 by counting descriptors per job (`Lemmas/FilesOpen.lean`) |
| C82 | the accessor methods of status words and attributes (`Model/Access.lean`); flags and places (`Spec/Access.lean`) | induction over the calls; for received bodies, case analysis over all types with the facts that every decoder establishes |
| C83 | types of bodies and extras that an application registers (`Model/Registered.lean`), by what their methods do; who was registered last, items and what arrives (`Spec/Registered.lean`) | false: witness. Induction over the registrations; exact description of the loop over the items; the message round trip C01 for the resulting codec |
| C84 | what every function does to shared memory, locks and channels, in order, with the outcomes of branches as parameters; interleavings of the goroutines of the program and of the library (`Model/Sync.lean`) | happens-before of the Go memory model (`Spec/Sync.lean`); every piece of program is checked to hold the right lock (composition), the lock a goroutine holds is an invariant of every run, between two holders there is an unlock and a lock; FIFO of the channel for memory that is handed over; induction over `go` statements |
| C85 | the same; runs without end | a holder of a lock never waits, so that it comes to release it; induction over what a goroutine has still to do; in a fair run every goroutine comes to a time from which on it can make no step, and then has nothing left to do; exactly: who has waited for a close handler has seen its end, so induction over the history shows that no chain of waits is without end |
| C86 | all connections with the objects they share (`Model/Fleet.lean`) | refinement: what one connection sees of the others are encodings of objects elsewhere (`Model/Outbox.lean`), so that C55 applies to each; encoding keeps the contents of all bodies but media messages; C86 false for those (witness); in runs without end what waits before a message gets shorter with every turn of the send loop |
| C87 | the programs of README.md and example/server (`Model/Readme.lean`, `Model/Programs.lean`) on the session model with handlers (`Model/Converse.lean`) | for any program whose answers depend on the message only, the messages handed to the connection are a function of the messages received (induction on the conversation); false for what two of them do with the contents (witnesses) |
| C88 | session model with handlers (`Model/Converse.lean`) | invariant on the conversation: the number of the session is that of the terminal if and only if a message was served; false before that (witness) |
| C89 | Unix permissions as far as `Write` depends on them (`Model/Permissions.lean`) | case analysis of `MkdirAll` and `WriteFile`; refinement of the storage model; invariant over all histories of writes for ordinary users; false for those (witness) |
| C90 | time zones with changes of the offset, `Location.lookup` and the search of `time.Date` (`Model/Zone.lean`); what a clock shows (`Spec/Zone.lean`) | the search finds the last change; case analysis of where the first guess of `time.Date` lies, using that changes are two days apart; false at changes (general refutations for every zone that has some, and witnesses) |
| C91 | SHA-1 (`Model/Sha1.lean`) and RSA-OAEP (`Model/Oaep.lean`) as the standard library has them; what an RSA key is (`Spec/Oaep.lean`) | Fermat's little theorem for every prime factor; the masks undo themselves; with it `KeyPair`, the assumption of C27 and C28, is proved of all RSA keys; false for keys that are no RSA keys (witness) |
| C92 | as C76, with a codec that has a private key | the frames of encrypted messages with C28, the loop on frames followed by anything (`Lemmas/Cipher.lean`), C91 for real keys; a simulation of two runs shows that encryption changes nothing else |
| C93 | the receive loops of all connections as in C74, but every system call of `Write`, `IsFull` and `Merge` is a step of its own (`Model/Syscall.lean`, with `Model/Files.lean`), and handlers read the merged file piece by piece; what handlers were given (`Spec/Syscall.lean`) | refinement: every run has a counterpart in the model of C74 with the same acts; the files with the results of C80; then C75. Both conditions are shown to be needed by witnesses. In runs without end (`Spec/SyscallFair.lean`): what is left of a loop never grows, and what is left of a call on files (stages, then files, then bytes; the parts stay as they are while they are merged) gets less with every system call that makes it go on, in a well-founded order |
| C94 | the session of C76, whose handlers and callbacks have code; what the loop does by itself (`Spec/Delivery.lean`) | relation between the runs of two programs, by induction on the messages; refinement: a session with code is a course of the loop of C32 in which the requests come from outside |
| C95 | the session of C76 with a further call for handlers and callbacks, `Close`, and whether the session is open (`Model/HangUp.lean`) | false as stated (witness: messages read together with the one whose handler closes the session); invariant on the course of the session: nothing is sent after closing, and what is still received are the frames at the start of what is left of one piece (`Spec/HangUp.lean`), at most eight; refinement: closing is the same as an earlier end of the connection, for the session of C76 |
| C96 | `EncryptOAEP` and `DecryptOAEP` with the model of RSA-OAEP and SHA-1 of C91 | FIPS 180-4 and RFC 8017 written down apart from the model, after the text of the standards (`Spec/Standards.lean`: words as bit vectors, the schedule and the rounds by recursion on their number, padding as a relation, MGF1 as a stream); equality by induction on rounds, words, blocks and bytes |
| C97 | the whole server of C78 with the part of github.com/funny/link that accepts connections, keeps the sessions in 32 maps and stops (`Model/Shutdown.lean`) | false as stated (witnesses: a handler is called after `Stop` has returned; a session stays registered for ever); invariant on the log over all interleavings of accepting, `Stop`, the closing goroutines and the rest: which sessions are in the maps, which are closed, and what was observed; projection onto the schedules of C78 for the close handlers and the registry; what can still be received from the buffers; a continuation in which `Stop` returns, from every reachable state; and for runs without end in which every goroutine is given turns again and again (`Spec/StopFair.lean`): `Stop` returns, every closing comes to its end, every receive loop ends (measure: what is left of the start of the session, of the unread bytes and of the work on the message), so from some time on nothing is received and no handler is called |
| C98 | the receive loops of any number of connections with the code of their handlers and callbacks, step by step, and the directory they share (`Model/Crowd.lean`) | a step on another connection leaves the own files as they are, so that the run without the others is simulated; an invariant relates each loop, in the middle of a handler too, to the conversation of one session (C76): what is done and what is left is what the loop does with the message; the numbers and requests of sessions that other goroutines use by an invariant on the log of the connection; progress by induction on the code of the handlers and the bytes that have arrived, and for runs without end by a well-founded order on the place of the loop and the bytes it has not used, which every turn goes down and nothing else changes; what is sent is bounded and grows only, so a fair run settles; uploads by turning the loop, when it has nothing left to do, into a run of C72's; the example client of C77 among others by simulation into the two-party system |
| C99 | processes of the server one after the other on the same files, each as in C93 and ended after any of its steps (`Model/Lives.lean`) | whatever calls are interrupted, the files are those that a list of completed calls leaves, with a torn write or merge for each interrupted one, so that the next process can be simulated as in C93; induction over the processes: the latest complete storing of a part is kept; a merged file that is left over is never longer than the file, so that it is overwritten entirely; the answer "success" is sent in the step in which the call that stores the part returns; in the long run as in C93: its argument does not depend on which files were there at the beginning |
| C100 | runs without end of the server of C97, in which the clock goes on and the goroutines are given turns again and again (`Spec/GoneFair.lean`); no turn is assumed for receiving or for handlers | false as stated (witness: the timer closes the session before its close callback is in place, and it stays registered for ever); a measure of what is left for the goroutine of a session (bytes, messages, steps) does not grow and does not stay as it is while the session starts or restarts the period, so that from some time on the session is past the restart and silent; the goroutine of the timer works off what expired before the next tick, so there is a tick late enough after which it is idle, and C50 says that the session has been closed; then C97, C37 and C36 |
| C101 | the server of C97, in runs without end in which the goroutine of the session is given turns and nobody else closes it (`Spec/World.lean`: `AllFrom`, `passedBy`, `ordinary`) | the loop ends by C97; invariants of the whole server: while the session is open, what was received and what is in the buffer is what successive calls of `Receive` give, so a loop that closes the session itself has come to the first error; what is received is what was passed on and what the loop is at; the handlers are those registered last; then C12 for the bytes of the terminal |

A property marked false keeps its full statement; the manifest lists a refuting theorem and the
strongest proved restriction (`_partial`).

## Findings (properties the code does not have)

Each is a theorem about the model; the names are in MANIFEST.json.

* **C51/C05** The three bytes `7e x 7e` on any connection crash the whole server: Decode indexes out of range and nothing
  recovers around the receive loop.
* **C04** `7d 01` / `7d 02` changed to `7c 01` / `7c 02` can pass the check byte (never delivering a wrong body). A byte that becomes a delimiter,
  or a closing delimiter that becomes `00`, can pass as well, also without a wrong body, but if it is the second byte of a message, the server crashes.
* **C06/C28** The body length is truncated to 16 bits before the 1023-byte check: bodies of 65536..66559 bytes are sent as a
  broken frame instead of being refused. A receiver of this package never delivers them (`C06_never_received_partial`).
* **C08** Terminal number 0 and numbers above 12 digits are changed silently (0 is written as an empty number, longer ones cut).
  Replies sent before a terminal number is known carry number 0, which a decoder rejects.
* **C16** Empty lists and an empty authentication key encode but do not decode. `C16_exact` says which bodies come back: exactly those that fit
  (`Spec.BodyFits`, in Spec/Fits.lean).
* **C17** 256 (or 65536) list items wrap the count: the peer sees an empty list. In messages this concerns resend requests, events, menus and phone books;
  the other lists are then too long for a message (`C17_refuted_messages`, `C17_long_lists_partial`).
* **C19** A decoded location report, sent on, loses all its extras.
* **C21** Rectangles and polygons crossing equator or meridian come out mirrored.
* **C22** Times in 2000-2009 do not decode (leading zero of the year lost); **C23** CAN receive times below one hour fail likewise.
* **C31** An answer arriving between Send and the registration of the callback is lost.
* **C33** Messages without handler, undecodable ones and upload parts do not keep the session alive.
* **C35** Overlapping Updates of one key (not done by the server) leave an orphan that fires early. `C35_exact_partial` states which schedules are right: exactly those in which no Update starts its countdown while one is running for its key.
* **C36/C37** A session closed by another goroutine between registration and AddCloseCallback stays registered for ever and gets
  no close handler. A message dispatched during closing can leave a (harmless) timer entry.
  `C36_exact_partial`, `C37_exact_partial`: it is forgotten, and its close handler runs, exactly if the callback was in place when the closing goroutine ended.
* **C41-C44** Uploads complete only if the highest-numbered part arrives last; repeated uploads mix with stale parts and with an
  untruncated merged file; a failing merge is acknowledged as success; IsFull panics without directory.
* **C45** Session.Send never encrypts, whatever key was set.
* **C47/C48** Several decoders append to the receiver; consumed counts of location reports and flag-led texts are wrong.
* **C34, C50** The deadline is the int64 sum of the clock and the period and wraps around: with a huge period, meant as "never" (such as `math.MaxInt64`), every session is
  closed at the next tick.
* **C50** A message dispatched between the tick and the close does not save the session. This is the only way to be closed early (`C50_early_exact_partial`), apart
  from sums of clock and period beyond 64 bits.
* **C53/C54** Encode of a media message (0x0801) consumes its content: sending it again sends none. Encode of a location report sets
  the hemisphere bits and never clears them: an object reused after crossing the equator reports the wrong hemisphere.
* **C56** Send returns nil for messages that cannot be encoded; the connection is then closed without a reason given to anyone.
* **C57** Two goroutines sending at once may put their messages on the wire in the opposite order of their serial numbers.
* **C60** `Run` and `Stop` share the field `server.server` without a lock: two calls of `Run` at once start two servers of which `Stop` stops one; two
  calls of `Stop` at once may crash the process. After `Serve` has ended on its own, `Run` says "already running" until `Stop` is called.
  Exactly (`C60_crash_exact_partial`, `C60_left_open_exact_partial`): a crash needs a `Stop` that goes on after another one has stopped the server; a
  listener is left for ever when a `Run` replaces one that is open, or a `Stop` forgets one that was opened after it closed its own.
* **C64** No file of an upload is ever removed.
* **C65** Send keeps the pointer: a body changed after Send returned may be sent in its changed form.
* **C67** Serial numbers repeat after 255 messages but a pending request stays in the table until it is answered or replaced: the answer to a later
  message with the same number runs the stale callback.
* **C68** What `Decode` accepts `Encode` does not always reproduce. An authentication whose key is one NUL byte, parameter lists with count 0 and a byte
  behind, circles, rectangles and polygons with nothing but padding, CAN data of 25 o'clock and location reports with extras are refused by `Decode` when
  they are encoded again; an RSA key with a short modulus is refused by `Encode`; a driver's number that is not GB18030 text is changed. A message received
  in an encrypted frame keeps the encryption flag, so that sending it on without a key gives a frame in clear that is marked as encrypted.
  `C68_exact` says which received bodies survive being passed on: exactly those that meet `Spec.Survives`.
* **C69** (limit) Nothing ties a terminal number to a connection: a client that uses the number of another terminal can replace the parts of its uploads.
* **C73** The example client cuts a file correctly when its length is a multiple of 512 bytes. With 700 bytes it panics after the first part, with 768
  bytes it numbers the parts "1 of 2" and "3 of 3", so that the upload is never complete.
* **C78** Neither a message without handler nor a part of an upload keeps a session alive: a terminal that uploads for longer than a period is cut off.
* **C79** After the close handler has run, handlers are still called for the messages that were in the buffer when another goroutine closed the session.
* **C80** Two connections of one terminal are not kept apart: while one is writing a part, the other finds its file, takes the upload for complete and
  delivers it without that part, and no call reports an error. If the directory cannot be read, `Merge` delivers an empty file (or the one of the last
  merge) without an error.
* **C81** (limit) `Merge` has the files of all parts open at the same time, so that the number of open files a process may have bounds the number of parts.
* **C83** An extra or body of an own type that is not a pointer type (or another kind that can be nil) can be registered and is decoded, but `Encode`
  panics for it in `reflect.Value.IsNil`, and a received message with such a body ends the server. An own type registered for the id of one of the
  protocol's answers (0x0001, 0x0104, ...) ends the server with the first such answer (failed type assertion; nothing recovers).
  `C83_received_exact` says for which messages the receive loop panics.
* **C95** A handler that closes its session, for example because an authentication is refused, does not stop the messages that were read together with the
  one it was given: up to eight of them are still given to handlers, although nothing can be sent any more.
* **C97** `Stop` waits for the close handlers, not for the receive loops: when it has returned, handlers may still be running and may still be called for messages
  that are in a buffer. A session that `Stop` closes before its close callback is in place, or that is made later for a connection accepted before, stays in the
  registry for ever, and its close handler never runs.
* **C99** When the server ends while a part is stored, the torn part counts as present: if the terminal sends the rest and not this part again, a handler is
  given a file that nobody sent, and everything is answered with "success" (`C99_torn_part_matters`).
* **C100** A session that the timer closes before its goroutine has put the close callback in place stays registered for ever, and its close handler never runs
  (`C100_refuted`; as for C36, C37 and C97).
* **C84** Data races: `Stop` reads and clears `server.server` without synchronisation while `Run`, which blocks in another goroutine, has stored it;
  `SetPublicKey` in a handler races with the send loop; `Register` after the first connection races with decoding (maps: this can end the process);
  `Broadcast` of a polygon area (0x8604) in the south or west makes the send loops of all sessions set bits in the same body.
* **C85** A close handler that calls `Stop` waits for ever, because `Stop` waits for the close handlers. Exactly those goroutines come
  to their end that wait for no circle of such close handlers (`C85_exact_partial`).
* **C86** A media message that is broadcast has its content on one connection only: the first send loop consumes it (as C53). (`C86_media_exact_partial`.)
* **C87** The third server of the README reads at most 1 MiB of an upload; the rest of a longer file is lost although it is acknowledged. Its second server never prints the parameters if the terminal acknowledges the query (0x0001) before it answers: the callback is called with the acknowledgement and panics (recovered by the library).
* **C88** The session learns the terminal's number only when a message is served. Replies to parts of an upload and to messages that are not supported, sent before that, are addressed to terminal 0, and a decoder (of this library) rejects them.
* **C89** `os.MkdirAll(dir, 0644)` creates directories without the x bit: unless root runs the server, or somebody has prepared the directory of every
  terminal, no part of an upload can be stored, and every part is answered with failure.
* **C90** Times are local and without their offset: where clocks are set back, an hour of reports comes out an hour wrong after decoding; where they are set
  forward, a terminal's time in the missing hour is accepted and written differently. In zones where the clocks go forward at midnight, a licence's expiry date
  (0x0702) of that day becomes the day before. The expiry date is formatted in the location of the value (t808_0x0702.go:83) but read as local.
* **C91** A key upload (0x0A00, 0x8A00) is accepted with any modulus. Encrypting with a received key whose modulus has at most 42 bytes panics in `bytesSplit`, which a
  handler survives (recovered) but another goroutine does not. `C91_any_key` says what happens with every key.
* **C39/C40** A file of somebody else in the directory of a terminal, with something other than a number in the place of the part's number, is merged before
  all parts (`C39_stray_file_merged`), though it does not count for completeness (`C40_stray_file`).
* Against the published standard, as far as remembered (the document is not available here): answers of 0x8302 have a one-byte length (standard:
  two), items of 0x8303 lack their type byte, the tails of areas (0x8600/8602/8604) write times and speeds both according to
  attribute bit 0 (standard: speed by bit 1), and 0x8606 always writes the times. `Spec/Layout.lean` follows the code there.

## Trusted base

* The Lean 4.33.0 kernel. Every theorem of the manifest depends only on `propext`, `Classical.choice`, `Quot.sound` (many on fewer);
  no `native_decide`, no `bv_decide`, no own axioms, no `sorry`. Mathlib is imported for C91 and C96 only (primes, Fermat's little theorem, Lucas' primality test).
* The faithfulness of the hand translation of Go into Lean (the comments give file and lines) and of the English statements.
* Go semantics: integer conversions and wrap-around, slice bounds, nil dereference, failed type assertions and index errors panic,
  `recover` in a deferred function stops a panic.
* `sync.Mutex` gives mutual exclusion, `sync/atomic` and `sync.Map` are sequentially consistent. The models of single functions and of the server take
  programs to be free of data races; C84 says when they are. (`server.server`, C60: its accesses are taken as sequentially consistent.)
* C95: github.com/funny/link closes the connection when `Close` is called first, refuses messages of a closed session, closes the session if it refuses another
  message, and its `Receive` calls the codec also if the session is closed; package net reads nothing from a closed connection.
* C98: reading the directory of the parts does not fail (C93 is about that); handlers of different sessions share no data but the sessions themselves; a call of `Send` or `Request`, and the work of a handler between two calls, is one step
  (C04, C33 and C86 are about what happens inside such calls).
* C99: the process ends, the operating system goes on: what was written stays in the files in the order in which it was written (nothing in the code calls
  `Sync`, so nothing is claimed about a power failure).
* C97: github.com/funny/link starts a goroutine for each accepted connection, spreads the sessions over 32 maps by number, marks the maps one after the other in
  `Stop`, closes a session at once that is made for a marked map, and waits for the sessions in the maps only. (The number of a session and its entry into the map
  are one step. What link does to its count of sessions when a session is closed that was never in a map is not modelled.)
* C84 and C85: the list of actions of every function (`Model/Sync.lean`) and the rules of the Go memory model. Fields that only constructors write are
  taken to be written before anyone else has the object; the program's own synchronisation is not in the model.
* Go standard library as modelled: `bytes`, `strconv`, `strings.Split`, `filepath.Ext/Walk`, `sort.Sort` (a sorted permutation),
  `container/heap` (modelled in full), `time` with the proleptic Gregorian calendar and a fixed UTC offset (C90: with any changes of the offset that are at least two days apart; `Location.lookup` and `time.Date` from their source), `fmt` `%d`.
* Parameters with stated assumptions: GB18030 transcoding (`Env.gbEnc/gbDec`; where needed: decoding what was encoded gives the text
  back; for the converse direction of `C16_exact` and `C68_exact` only, `Spec.Codecs`: a text does not come back from its bytes if seven or more of
  them are missing, compressed data does not come back from its bytes if any are missing), gzip (`Env.gzip/gunzip`, likewise), RSA-OAEP (`EncKey/DecKey`; where needed: decryption inverts encryption, blocks have the
  key size; C91 proves this of RSA-OAEP as modelled in `Model/Oaep.lean`, from the source of crypto/rsa and the standard of SHA-1, for all RSA keys and random bytes, and C96 that this is what RFC 8017 and FIPS 180-4 say), results of the file system (`Outcome`), results of writing to the connection.
* github.com/shopspring/decimal: a decimal is an exact number `coefficient · 10^exponent`; `Mul` is exact, `IntPart` truncates.
* github.com/funny/link (not in the repository, from knowledge of its source): session ids come from a counter; `Close` takes effect once
  (compare-and-swap) and then runs the close callbacks in a goroutine under a mutex; `AddCloseCallback` does nothing on a closed
  session; `Send` puts the message into a channel of 24 places, and closes the session and fails if there is no room; one
  goroutine per session takes messages from it, calls the codec's `Send` and closes the session on an error; nothing recovers
  panics of the receive loop or the send loop; `Server.Serve` accepts connections until accepting fails or the listener is closed,
  `Server.Stop` closes the listener and closes the sessions, waiting for their close callbacks (the closes are among the schedules considered:
  anyone may close a session at any time; see C85 for the waiting).
* `filepath.Walk` from its source: `Lstat` of the directory, the names in it, `Lstat` and the callback for each. Reading the names of a directory gives
  each file that was there when it began, and of those created meanwhile any. No file is removed or renamed by others. (`Model/Multipart.lean` has each call
  of `Write`, `IsFull` and `Merge` in one step; `C80_atomic_partial` and, for the whole server, C93 say when that is right.)
* A system call (create or truncate, write, read, `Lstat`) takes effect at once. Reading a piece of a part and writing it to the merged file are one step.
* C89: `os.MkdirAll` from its source (`Stat`, the same for the parent, `Mkdir`, `Lstat`), and the rules of Unix for permissions as described in
  `Model/Permissions.lean`.

* Types that an application registers (C83): `Register` and `extra.Register` are called before anything is decoded; a creator gives an equal fresh value
  at every call; the `ID` and `Data` methods of own extras do not panic.

## What is modelled and what is not

Modelled: all of `protocol/` (message, header, property, all 65 registered bodies, extras, parameters, bit, bufio, helpers, time and
BCD conversion), `protocol.go`, `timer.go`, `multipart.go`, `session.go`, `session_handler.go`, `server.go`, the two programs in `example/` (the
server for one connection, and in C98 for many, the client with an unencrypted connection), and the three servers of `README.md` (for one connection; C98 holds for
all programs).

As a check of the model against the code, `Props/RepoTests.lean` runs the 66 tests of the repository on the model. They come out as their authors expect;
in particular the model also does what the tests rely on by the way (0x8602 and 0x8604 only compare equal because `Encode` marks the hemisphere in its
receiver; 0x0200 with extras is not compared). These are tests, no claim rests on them.

Not modelled: logging (`logger.go`, logrus calls), error texts, `String()` methods, memory
consumption and garbage collection, real time (clock readings are arbitrary), the TCP stack (a connection is the list of reads
it returns), user code that never returns (in C98 a loop that gets no more turns), file permissions other than for the writes of C89, several
processes on the same temporary directory at the same time (C99: one after the other).
