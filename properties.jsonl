{"id": "C01", "title": "Message round trip", "statement": "Decoding the bytes produced by Message.Encode returns a message with the same message id, serial number, terminal number, packet info and body as the one encoded, for every body whose own codec round-trips and every terminal number of 1 to 12 digits.", "quantifier": "every header, every body type and value within its documented ranges, encrypted or not", "why_tests_cant": "the input space is unbounded: bodies of any content up to the size limit combined with arbitrary headers and escape-sensitive bytes", "anchors": ["protocol/message.go: Message.Encode, Message.Decode", "protocol/header.go: Header.Encode, Header.Decode"]}
{"id": "C02", "title": "Frame transparency", "statement": "The bytes produced by Message.Encode start and end with 0x7e and contain no other 0x7e, whatever the header and body bytes are, and removing the escaping recovers header, body and checksum exactly.", "quantifier": "every header and body byte string", "why_tests_cant": "every byte position can hold an escape-sensitive value; tests cover a few placements", "anchors": ["protocol/message.go: Message.Encode, Message.unescape, Message.write"]}
{"id": "C03", "title": "Checksum integrity", "statement": "Message.Decode accepts a frame only if the XOR of all unescaped bytes before the check byte equals the check byte; changing any one byte of the unescaped content of a valid frame to any other value makes Decode fail.", "quantifier": "every frame, every byte position, every replacement value", "why_tests_cant": "positions times values times frames is not enumerable", "anchors": ["protocol/message.go: Message.Decode"]}
{"id": "C04", "title": "Wire corruption is detected", "statement": "Changing any single byte on the wire between the two delimiters of an encoded frame never makes Decode return success.", "quantifier": "every encoded frame, every wire position, every replacement byte", "why_tests_cant": "the escape layer lets a one byte change alter the number of content bytes; only a proof over all frames shows which changes escape detection", "anchors": ["protocol/message.go: Message.Decode, Message.unescape"]}
{"id": "C05", "title": "Message.Decode never panics", "statement": "Message.Decode returns a result or an error for every byte string; it never panics.", "quantifier": "every byte string", "why_tests_cant": "arbitrary attacker-controlled input of any length", "anchors": ["protocol/message.go: Message.Decode"]}
{"id": "C06", "title": "Body size limit", "statement": "Message.Encode fails with the body-too-long error exactly when the encoded body is longer than 1023 bytes, so a frame never carries a size field that differs from its body length.", "quantifier": "every body of every length", "why_tests_cant": "lengths are unbounded, and the failure appears only beyond 65535 bytes", "anchors": ["protocol/message.go: Message.Encode", "protocol/property.go: Property.SetBodySize"]}
{"id": "C07", "title": "Terminal number round trip", "statement": "A header with any terminal number from 1 to 999999999999 decodes to the same terminal number, serial, property and packet fields; and a header whose 6 BCD bytes contain a non-decimal digit is rejected.", "quantifier": "every terminal number in range and every other header field value", "why_tests_cant": "10^12 terminal numbers times all other fields", "anchors": ["protocol/header.go: Header.Encode, Header.Decode", "protocol/helpers.go: stringToBCD, bcdToString"]}
{"id": "C08", "title": "No silent change of the terminal number", "statement": "Every terminal number that Header.Encode accepts is the number the peer decodes.", "quantifier": "every 64-bit terminal number", "why_tests_cant": "the failing values (0 and numbers of more than 12 digits) are outside what the tests use", "anchors": ["protocol/header.go: Header.Encode, Header.Decode", "protocol/helpers.go: stringToBCD, bcdToString"]}
{"id": "C09", "title": "Property word fields are independent", "statement": "Setting body size, encryption flag or packet flag of a message property changes only that field, reads back what was set, and sizes above 1023 are refused without a change.", "quantifier": "every property word and every sequence of settings", "why_tests_cant": "histories of setter calls over all 65536 words", "anchors": ["protocol/property.go"]}
{"id": "C10", "title": "Undecodable bodies still deliver the header", "statement": "For a frame with a valid checksum and header, Decode succeeds with the header filled in; the body is present exactly when the size field matches (compared in 16 bits), the type is registered and the type's decoder accepts the bytes, otherwise it is nil. Only a frame of matching size whose body is marked as encrypted and cannot be decrypted (no key, or decryption fails) is refused.", "quantifier": "every frame with valid envelope, every registered or unregistered type", "why_tests_cant": "all body contents and all registries", "anchors": ["protocol/message.go: Message.Decode", "protocol/register.go"]}
{"id": "C11", "title": "Body type matches the header", "statement": "Whenever Decode delivers a non-nil body into a fresh message, the body's own MsgID() equals the header's message id, so the type assertions made by sessions never fail.", "quantifier": "every byte string", "why_tests_cant": "arbitrary input over all registered types", "anchors": ["protocol/register.go: entityMapper", "session.go: Session.message"]}
{"id": "C12", "title": "Stream reassembly", "statement": "For any sequence of encoded messages and any way the network splits their concatenation into reads, successive Receive calls deliver exactly those messages in order, then the connection's end-of-stream error.", "quantifier": "every list of messages and every chunking of the byte stream", "why_tests_cant": "number of chunkings is exponential in the stream length", "anchors": ["protocol.go: ProtocolCodec.Receive, readFromBuffer"]}
{"id": "C13", "title": "Receive buffer bound", "statement": "While receiving well-formed traffic the receive buffer never exceeds the largest frame plus one read, so well-formed traffic never triggers the body-too-long error; on any traffic the retained buffer never exceeds 65535 bytes after a non-error return.", "quantifier": "every stream and chunking", "why_tests_cant": "unbounded histories", "anchors": ["protocol.go: ProtocolCodec.Receive"]}
{"id": "C14", "title": "Stream error and resynchronisation", "statement": "If the stream does not start with 0x7e Receive reports the missing-prefix error and discards exactly the bytes before the next 0x7e; a bad frame is reported and consumed exactly; frames behind it are delivered by later calls.", "quantifier": "every buffer content", "why_tests_cant": "arbitrary garbage mixed with frames", "anchors": ["protocol.go: ProtocolCodec.readFromBuffer"]}
{"id": "C15", "title": "Body decoders never panic", "statement": "Every body type's Decode returns a value or an error for every byte string; none panics.", "quantifier": "every registered body type and every byte string", "why_tests_cant": "66 decoders times all byte strings", "anchors": ["protocol/t808_0x*.go: Decode"]}
{"id": "C16", "title": "Body round trip", "statement": "For every body type, decoding the encoded bytes yields the same field values, for all field values within the documented ranges of that type.", "quantifier": "every body type and every value in range", "why_tests_cant": "lists, strings and optional parts of unbounded shapes", "anchors": ["protocol/t808_0x*.go: Encode, Decode"]}
{"id": "C17", "title": "List counts are faithful", "statement": "A list-carrying body of any length either encodes so that the peer decodes the same list, or Encode reports an error.", "quantifier": "every list body type, every list length", "why_tests_cant": "only lists longer than 255 or 65535 items (or empty lists) fail", "anchors": ["protocol/t808_0x8103.go", "protocol/t808_0x0104.go", "protocol/t808_0x8600.go", "protocol/t808_0x8003.go"]}
{"id": "C18", "title": "Location extras", "statement": "Extras attached to a location report decode, in order, to the same values; extras with unknown ids are skipped without affecting the others; an extra whose length disagrees with its type is an error.", "quantifier": "every list of extras, known and unknown", "why_tests_cant": "unbounded lists of 12 kinds interleaved with unknown items", "anchors": ["protocol/t808_0x0200.go", "protocol/extra/*.go"]}
{"id": "C19", "title": "Forwarding a decoded location", "statement": "Encoding a location report that was obtained by decoding yields bytes that decode to the same report, including extras.", "quantifier": "every location report", "why_tests_cant": "the loss happens only in the decode-then-encode composition, for every extra", "anchors": ["protocol/t808_0x0200.go", "protocol/extra/*.go: Data, Decode"]}
{"id": "C20", "title": "Coordinates are exact", "statement": "Latitude and longitude of a location report decode to the encoded value truncated to a millionth of a degree, with sign, as long as the hemisphere bits were not set beforehand against the sign; altitude, speed, direction and other status bits are unchanged.", "quantifier": "every coordinate and status word", "why_tests_cant": "rational coordinates and 2^32 status words", "anchors": ["protocol/t808_0x0200.go", "protocol/helpers.go: getGeoPoint"]}
{"id": "C21", "title": "Area coordinates keep their hemisphere", "statement": "Circles, rectangles, polygons and route points round-trip with the sign of every coordinate.", "quantifier": "every area list and every vertex list", "why_tests_cant": "the failure needs vertices on both sides of the equator or meridian inside one area", "anchors": ["protocol/t808_0x8600.go", "protocol/t808_0x8602.go", "protocol/t808_0x8604.go", "protocol/t808_0x8606.go"]}
{"id": "C22", "title": "Timestamps round trip", "statement": "A time between 2000-01-01 and 2099-12-31 in local time encodes to six BCD bytes that decode to the same instant at one second resolution.", "quantifier": "every instant in the century and every fixed UTC offset", "why_tests_cant": "3 billion instants times offsets; the failing decade is not in the tests", "anchors": ["protocol/helpers.go: toBCDTime, fromBCDTime"]}
{"id": "C23", "title": "CAN receive time round trip", "statement": "The receive time of a CAN upload between 0 and 24 hours round-trips at millisecond resolution.", "quantifier": "every duration in range", "why_tests_cant": "86.4 million durations; failing ones are those with hour zero", "anchors": ["protocol/t808_0x0705.go"]}
{"id": "C24", "title": "String fields", "statement": "Fixed-width strings round-trip whenever they fit and contain no NUL, and are cut or padded to exactly their width otherwise; length-prefixed strings round-trip whenever their encoded length fits the prefix.", "quantifier": "every string and every following field", "why_tests_cant": "all strings of all lengths", "anchors": ["protocol/t808_0x0100.go", "protocol/t808_0x0107.go", "protocol/t808_0x0702.go", "protocol/bufio.go"]}
{"id": "C25", "title": "Terminal parameters", "statement": "A parameter set with SetByte, SetUint16, SetUint32, SetBytes or SetString reads back the same value with the matching getter, a getter wider than the stored value fails, and ids are preserved.", "quantifier": "every id and value", "why_tests_cant": "all values of all types", "anchors": ["protocol/params.go"]}
{"id": "C26", "title": "Bit helpers", "statement": "GetBit after SetBit reads the bit set, other bits are unchanged, and offsets beyond the width read false and change nothing.", "quantifier": "every word, offset and value", "why_tests_cant": "2^32 words times offsets; histories", "anchors": ["protocol/bit.go"]}
{"id": "C27", "title": "RSA block splitting", "statement": "The plaintext is split into blocks that concatenate to the plaintext, all of the block limit except a shorter last one; decrypting the concatenated cipher blocks gives back the plaintext.", "quantifier": "every plaintext and every key size, for any correct block cipher", "why_tests_cant": "unbounded plaintexts", "anchors": ["protocol/helpers.go: EncryptOAEP, DecryptOAEP, bytesSplit"]}
{"id": "C28", "title": "Encrypted messages", "statement": "A message encoded with a public key decodes with the matching private key to the same message; without the key Decode fails with the decrypt error; the largest encryptable body with a 1024-bit key is 602 bytes.", "quantifier": "every message, for any correct block cipher", "why_tests_cant": "unbounded bodies; boundary depends on block arithmetic", "anchors": ["protocol/message.go: Message.Encode, Message.Decode", "protocol/helpers.go: EncryptOAEP"]}
{"id": "C29", "title": "Serial numbers", "statement": "Serial numbers handed out by a session are never 0, lie in 1..255, and any 255 consecutive allocations are pairwise distinct, under every interleaving of concurrent senders.", "quantifier": "every number of goroutines and every schedule", "why_tests_cant": "schedules cannot be enumerated", "anchors": ["session.go: Session.nextID"]}
{"id": "C30", "title": "Answer callbacks", "statement": "A request's callback runs at most once, only for an answer carrying its serial number, and at most one request per message id is pending; an answer with serial 0 or without a pending request runs nothing.", "quantifier": "every history of requests and answers", "why_tests_cant": "unbounded histories with serial wrap-around", "anchors": ["session.go: addRequestContext, takeRequestContext, message"]}
{"id": "C31", "title": "No lost answers", "statement": "If the terminal answers a request, the request's callback runs.", "quantifier": "every schedule of the sender and the receiver goroutine", "why_tests_cant": "needs one specific interleaving of two goroutines", "anchors": ["session.go: Session.Request"]}
{"id": "C32", "title": "Dispatch", "statement": "Each received message with a decoded body is given, in receive order and exactly once, to the handler registered last for its message id and to no other; messages without handler are given to none; messages without decodable body are answered Unsupported with their serial and id.", "quantifier": "every sequence of received messages and handler registrations", "why_tests_cant": "unbounded histories", "anchors": ["session_handler.go: HandleSession", "server.go: dispatchMessage, AddHandler"]}
{"id": "C33", "title": "Any traffic keeps a session alive", "statement": "Every complete message received from a terminal restarts its keepalive period.", "quantifier": "every message and history", "why_tests_cant": "depends on handler registration and message kind", "anchors": ["server.go: dispatchMessage", "session_handler.go"]}
{"id": "C34", "title": "Timer correctness", "statement": "At each tick the countdown timer fires exactly the keys whose latest deadline has passed, each once, in deadline order; a key updated later fires only at its new deadline; a removed key never fires.", "quantifier": "every sequence of Update, Remove, SetExpiration and ticks over any set of keys", "why_tests_cant": "unbounded histories over a heap structure", "anchors": ["timer.go: CountdownTimer, expirationQueue"]}
{"id": "C35", "title": "Timer under concurrency", "statement": "The timer guarantees hold for every interleaving of concurrent Update, Remove and tick calls.", "quantifier": "every schedule", "why_tests_cant": "needs two overlapping updates of one key", "anchors": ["timer.go: Update, Remove, checkExpirationQueue"]}
{"id": "C36", "title": "Session registry", "statement": "GetSession finds exactly the sessions that were accepted and whose close has not completed; ids are distinct sessions.", "quantifier": "every history of accepts, closes and timeouts, every schedule", "why_tests_cant": "unbounded histories", "anchors": ["server.go: GetSession, handleClose", "session_handler.go: HandleSession"]}
{"id": "C37", "title": "Close callback exactly once", "statement": "The close handler runs exactly once for each accepted session that is closed, even if it panics, and after it the session has no timer entry and is not registered.", "quantifier": "every schedule of close, timeout and receive-error", "why_tests_cant": "close can come from several goroutines", "anchors": ["server.go: handleClose, handleReadTimeout"]}
{"id": "C38", "title": "Broadcast", "statement": "Broadcast attempts to send to every registered session exactly once and returns the number of successful sends.", "quantifier": "every set of sessions and every pattern of send failures", "why_tests_cant": "all subsets of failing sessions", "anchors": ["server.go: Broadcast"]}
{"id": "C39", "title": "Multipart merge content", "statement": "After all parts 1..n of an upload were stored in any order, with any retransmissions, into fresh storage, the merged file is the concatenation of the latest content of parts 1..n in sequence order.", "quantifier": "every number of parts, contents, arrival order and duplication", "why_tests_cant": "factorially many arrival orders", "anchors": ["multipart.go: Write, IsFull, Merge"]}
{"id": "C40", "title": "Multipart isolation", "statement": "Parts of uploads with another terminal, message id or tag never influence IsFull or the merged content, and IsFull is true exactly when all parts 1..n are stored.", "quantifier": "every set of concurrent uploads", "why_tests_cant": "all combinations of ids; decimal file names must be unambiguous", "anchors": ["multipart.go: walkParts, IsFull, partFilename"]}
{"id": "C41", "title": "Multipart completion in any order", "statement": "When every part of an upload has been received, in whatever order, the merged message is dispatched exactly once.", "quantifier": "every arrival order", "why_tests_cant": "arrival orders; fails only when the last part is not last", "anchors": ["session_handler.go: HandleSession"]}
{"id": "C42", "title": "Repeated uploads", "statement": "A second upload with the same media id delivers its own content, independent of what an earlier upload left on disk.", "quantifier": "every pair of uploads", "why_tests_cant": "needs a longer earlier upload with the same ids", "anchors": ["multipart.go: Merge, IsFull"]}
{"id": "C43", "title": "Multipart acknowledgements", "statement": "Each received part is answered exactly once with its serial number and id: success if it was stored (and, for the completing part, merged), failure otherwise.", "quantifier": "every sequence of parts and storage failures", "why_tests_cant": "unbounded histories with failures at any point", "anchors": ["session_handler.go: HandleSession"]}
{"id": "C44", "title": "IsFull before the first part", "statement": "IsFull reports false for an upload of which no part was stored yet.", "quantifier": "every upload and storage state", "why_tests_cant": "depends on directory state", "anchors": ["multipart.go: IsFull, walkParts"]}
{"id": "C45", "title": "Encryption after SetPublicKey", "statement": "After the session's public key is set, messages sent through the session are encrypted.", "quantifier": "every message sent", "why_tests_cant": "needs the header built by the session for every message", "anchors": ["protocol.go: ProtocolCodec.Send", "session.go: Session.Send"]}
{"id": "C46", "title": "Replies identify the request", "statement": "A reply carries the serial number and message id of the message replied to, the given result, the terminal number last learned by the session and a fresh serial number.", "quantifier": "every message, result and session history", "why_tests_cant": "unbounded histories", "anchors": ["session.go: Session.Reply, Session.Send, Session.message"]}
{"id": "C47", "title": "Decode depends only on the bytes", "statement": "Decoding into a reused body value gives the same result as decoding into a new one.", "quantifier": "every body type, previous value and byte string", "why_tests_cant": "previous contents are unbounded", "anchors": ["protocol/t808_0x8003.go", "protocol/t808_0x8800.go", "protocol/t808_0x8606.go"]}
{"id": "C48", "title": "Consumed byte count", "statement": "The count returned by a body's Decode on the bytes its Encode produced equals their number.", "quantifier": "every body type and value", "why_tests_cant": "all values of 66 types", "anchors": ["protocol/t808_0x*.go: Decode"]}
{"id": "C49", "title": "Handler panics are contained", "statement": "A panic in a message handler, close handler or request callback does not stop the session's receive loop: later messages are processed as if the handler had returned.", "quantifier": "every history and every pattern of panics", "why_tests_cant": "panics at any point of any history", "anchors": ["server.go: dispatchMessage, handleClose", "session.go: message"]}
{"id": "C50", "title": "Keepalive never fires early", "statement": "A session is closed by the keepalive timer only if at least the keepalive period has passed since its last dispatched message (or its accept), and it is closed by the first timer tick after that.", "quantifier": "every history of messages and ticks", "why_tests_cant": "unbounded histories and clocks", "anchors": ["server.go: handleReadTimeout, dispatchMessage", "timer.go"]}
{"id": "C51", "title": "Client bytes cannot crash the server", "statement": "Whatever bytes a client sends, in whatever pieces, handling its connection never makes the server process panic.", "quantifier": "every byte sequence, every split into reads, every behaviour of handlers, callbacks and other sessions meanwhile", "why_tests_cant": "arbitrary byte sequences and schedules", "anchors": ["protocol.go: Receive, readFromBuffer", "message.go: Decode", "session_handler.go: HandleSession"]}
{"id": "C52", "title": "Bodies have the documented layout", "statement": "A message body whose fields are in range is written as its table documents it: every field in its place, with its width, byte order, padding or length prefix, optional fields only when present. Conversely, bytes laid out by the table, in a frame with a protocol header, are decoded to exactly those field values.", "quantifier": "all 65 body types, all field values in range, all list lengths, every header and receiver", "why_tests_cant": "an encoder and a decoder that share a mistake (swapped fields, little-endian numbers, wrong width) pass every round-trip test; the layout has to be compared with an independent table for all values", "anchors": ["protocol/t808_0x*.go: Encode, Decode", "protocol/bufio.go: Writer, Reader", "protocol/message.go: Message.Encode, Message.Decode"]}
{"id": "C53", "title": "Sending a body again sends the same bytes", "statement": "Encoding the same body object again, for a repeated Send, for another session in a broadcast or for a whole message, gives the same bytes as the first time.", "quantifier": "all registered body types and field values, any number of repetitions, any message header", "why_tests_cant": "Encode has pointer receivers and may change the body (hemisphere bits, clamped times, consumed readers); a test sees one type and one repetition", "anchors": ["protocol/message.go: Message.Encode", "protocol/t808_0x0801.go: T808_0x0801.Encode", "protocol/t808_0x0200.go: T808_0x0200.Encode", "session.go: Session.Send"]}
{"id": "C54", "title": "A reused report shows its current position", "statement": "A program that keeps one location report object, sets its latitude and longitude for every new position and sends it, sends reports that decode to the position set last.", "quantifier": "all journeys (finite sequences of positions whose coordinates fit the wire format), any report with a sensible time", "why_tests_cant": "the error depends on the history of the object: hemisphere bits of earlier positions stay set in the status word", "anchors": ["protocol/t808_0x0200.go: T808_0x0200.Encode", "protocol/t808_0x0200.go: T808_0x0200.Decode"]}
{"id": "C61", "title": "Encoding never panics", "statement": "Encode of a registered body never panics, whatever its fields hold, and succeeds if its texts can be represented in GB18030 and its key, if it has one, is a 1024-bit key. Encode of a message panics only if it has no body, if the caller set the packet flag without packet information, or if the encryption key has at most 42 bytes; nothing a session sends with a body panics.", "quantifier": "all bodies of all registered types (lists without nil entries), all headers, all keys, all text encoders", "why_tests_cant": "every field of every type can hold any value; the panic would end the send loop and with it the server", "anchors": ["protocol/message.go: Message.Encode", "protocol/header.go: Header.Encode", "protocol/helpers.go: EncryptOAEP, bytesSplit", "protocol/t808_*.go: Encode"]}
{"id": "C62", "title": "Different messages look different on the wire", "statement": "Two messages with registered bodies that are sent as the same bytes have the same terminal number, serial number, packet information and body; two sequences of messages that are sent as the same byte stream have the same length and agree message by message.", "quantifier": "all pairs of messages and of finite message sequences whose fields fit the wire format, without encryption", "why_tests_cant": "injectivity over all pairs of messages cannot be enumerated", "anchors": ["protocol/message.go: Message.Encode, Message.Decode", "protocol.go: ProtocolCodec.Send, ProtocolCodec.Receive"]}
{"id": "C55", "title": "Sent messages reach the wire once and in order", "statement": "The bytes written to a connection are the frames of the messages for which Send returned nil, in the order of acceptance, each once and each with the body it had when Send was called, except that a last frame may be cut off if the connection failed; whatever follows was not written. The other side, reading the bytes in any pieces and losing the connection anywhere, receives exactly the first messages accepted, in order and with their contents. As long as nothing fails and the session stays open, every accepted message is written at some time, in every run in which the send loop is given turns again and again.", "quantifier": "all programs of any number of goroutines that send through one session, all interleavings with the send loop and with other sessions sending the same bodies, all write errors and points of closing, all encryption keys; bodies are not changed while they wait (see C65) and are not media uploads (C53)", "why_tests_cant": "the interleavings of senders, send loop, write errors and Close are unbounded", "anchors": ["session.go: Session.Send", "protocol.go: ProtocolCodec.Send", "server.go: server.Run (link.NewServer, 24)"]}
{"id": "C56", "title": "Send reports messages that cannot be encoded", "statement": "If Send returns nil, the message can be encoded, i.e. only failures of the connection can prevent it from being delivered.", "quantifier": "all messages, all text encodings, all states of the connection", "why_tests_cant": "which bodies cannot be encoded depends on every field; the failure occurs asynchronously", "anchors": ["session.go: Session.Send", "protocol.go: ProtocolCodec.Send"]}
{"id": "C57", "title": "Messages go out in the order of their serial numbers", "statement": "The messages a session sends appear on the wire in the order in which their serial numbers were handed out (numbers of refused messages being left out).", "quantifier": "all histories of Send, Request and Reply by any number of goroutines", "why_tests_cant": "an inversion needs a particular interleaving between taking the number and enqueueing", "anchors": ["session.go: Session.Send, Session.Request, Session.Reply, nextID"]}
{"id": "C65", "title": "Send takes a snapshot of the body", "statement": "A message is written with the body as it was when Send was called; the program may reuse or change the body once Send has returned.", "quantifier": "all programs, all interleavings with the send loop", "why_tests_cant": "depends on when the send loop gets to the message", "anchors": ["session.go: Session.Send", "protocol.go: ProtocolCodec.Send"]}
{"id": "C66", "title": "A slow terminal does not block or fill the server", "statement": "At most 24 messages of a session wait to be written. Send never waits for the terminal: it accepts the message, or fails because the session is closed, or finds 24 messages waiting, closes the session and fails.", "quantifier": "all terminals (including those that never read), all programs and interleavings", "why_tests_cant": "a bound over all schedules; absence of waiting cannot be observed by a finite test", "anchors": ["server.go: server.Run (link.NewServer, 24)", "session.go: Session.Send"]}
{"id": "C58", "title": "The answer of a terminal reaches the callback of its request", "statement": "When a terminal's answer message arrives, in whatever pieces, and a request with the serial number it names is waiting, the callback of that request is called with the content of the answer, before handlers and before any further message. A callback is never called with a message that does not answer its request.", "quantifier": "all requests, answers, histories of the session, fragmentations of the byte stream and acts of other goroutines", "why_tests_cant": "covers every history of requests and answers and every way the bytes can be cut", "anchors": ["session.go: Session.Request, Session.message, takeRequestContext", "session_handler.go: HandleSession", "protocol.go: ProtocolCodec.Receive"]}
{"id": "C63", "title": "Unanswered requests do not pile up", "statement": "However many requests are made and never answered, a session keeps at most one pending request per message id, and later answers run at most one callback per message id.", "quantifier": "all schedules of any number of goroutines, all request histories", "why_tests_cant": "a bound over unbounded histories", "anchors": ["session.go: addRequestContext, takeRequestContext"]}
{"id": "C67", "title": "An answer runs only the callback of the message it answers", "statement": "When an answer names serial number n, a callback runs only if the latest message sent with number n was sent by a request with this callback.", "quantifier": "all schedules and histories of a session", "why_tests_cant": "serial numbers repeat after 255 messages; needs long histories and stale requests", "anchors": ["session.go: nextID, takeRequestContext"]}
{"id": "C59", "title": "Uploads stay in their place", "statement": "Whatever terminal numbers, tags and packet numbers a terminal sends, every file the server writes for it lies directly in <temp>/go808/<terminal number>/ under a name made of numbers and a fixed suffix; different parts never share a file, parts never overwrite merged files, and the files of other terminals are left alone.", "quantifier": "all messages, all histories of a session, all temporary directories", "why_tests_cant": "the file names depend on 64+16+32+16 bits chosen by the terminal; isolation must hold after every history", "anchors": ["multipart.go: rootDir, Write, Merge", "session_handler.go: HandleSession"]}
{"id": "C60", "title": "Server lifecycle", "statement": "NewServer fails exactly for keys other than 1024 bits and uses 60 seconds for a non-positive keepalive. Run is refused while the server runs; Stop may be called at any time by anyone, leaves nothing listening, and the server can be run again afterwards, also after it ended on its own.", "quantifier": "all options; all sequences and interleavings of Run, Stop and failures", "why_tests_cant": "interleavings of unsynchronised calls", "anchors": ["server.go: NewServer, Run, Stop"]}
{"id": "C64", "title": "Storage of finished uploads is released", "statement": "Once a complete upload was handed to its handler, or its connection has ended, the files of the upload no longer occupy storage.", "quantifier": "all histories of uploads", "why_tests_cant": "a statement about all later states of a long-running server", "anchors": ["multipart.go: Merge", "session_handler.go: HandleSession"]}
{"id": "C68", "title": "Received messages can be passed on", "statement": "A message that was decoded from received bytes can be encoded again, and decoding the result gives the same message: whatever Decode accepts, Encode accepts, and nothing is lost or changed on the way. This is what a server relies on that forwards terminal messages to another platform.", "quantifier": "all byte strings that decode, for every registered body type, all keys", "why_tests_cant": "round-trip tests start from values their author built; here every accepted byte string is a start, including unusual dates, padded fields, zero counts and trailing bytes", "anchors": ["protocol/message.go: Message.Decode, Message.Encode", "protocol/entity.go: Entity", "protocol/*.go: Decode and Encode of each body"]}
{"id": "C69", "title": "Sessions do not disturb each other", "statement": "What the server does for a connection (its answers, the handlers and callbacks it calls and the messages it gives them, the contents of completed uploads, whether it crashes) is determined by the bytes of that connection, the calls of the program and the uploads this connection takes part in. Storing and merging other uploads, of other terminals or of the same terminal, at any moment and with any outcome, makes no difference.", "quantifier": "all byte streams of a connection, all interleavings with the work of other sessions at every point where shared state is looked at, all outcomes of file operations, all initial contents of the storage", "why_tests_cant": "non-interference compares all pairs of runs; a test sees one interleaving", "anchors": ["session_handler.go: HandleSession", "multipart.go: Write, IsFull, Merge, walkParts", "server.go: dispatchMessage", "session.go: message"]}
{"id": "C70", "title": "Exactly which body bytes are accepted", "statement": "Bytes are decoded as the body of a message exactly if they begin with the fields of that message type in their order: fixed-width numbers, texts in the text encoding, counted lists with all their items, decimal times that name a moment of the calendar, parameters and additional items with their lengths. Bytes behind the fields are ignored; all other bytes are refused with an error.", "quantifier": "all byte strings, all 65 registered message types, all text encodings", "why_tests_cant": "an exact description of an infinite set of byte strings: every accepted one has the fields and every one with the fields is accepted", "anchors": ["protocol/t808_*.go: Decode", "protocol/register.go", "protocol/extra/*.go", "protocol/params.go"]}
{"id": "C71", "title": "Exactly which frames are received, and as what", "statement": "Decode succeeds with a message exactly if the bytes are a delimited, unescapable frame with a right check byte, a header with a decimal terminal number from 1 to 999999999999 and packet information exactly if announced; the message then has the header on the wire, and a body exactly if the length is the announced one, the bytes decrypt (when marked so) and have the fields of the message type. The reading is unique. Everything else is refused.", "quantifier": "all byte strings, all message types, all keys", "why_tests_cant": "an equivalence over all byte strings; tests see a few accepted and a few refused ones", "anchors": ["protocol/message.go: Message.Decode", "protocol/header.go: Header.Decode", "protocol/register.go"]}
{"id": "C72", "title": "A file uploaded in parts arrives, from the terminal's Send to the handler", "statement": "A terminal sends the parts of a media upload (any order, repetitions and other messages in between, the last part at the end), cut from any file into at most 65535 parts of at most 987 bytes. However the bytes are split by the network, the server calls the handler registered last for the message exactly once for this upload, with the media data of the last part and with the file, byte by byte, as content; every part is answered with success.", "quantifier": "all files, all ways to cut them, all orders and repetitions, all other messages in between, all splits of the byte stream, all events around the handling that do not touch the upload", "why_tests_cant": "files, cuts, interleavings and splits of the stream are unbounded", "anchors": ["session.go: Session.Send", "protocol.go: ProtocolCodec.Send, ProtocolCodec.Receive", "session_handler.go: sessionHandler.HandleSession", "multipart.go: MultipartFile.Write, MultipartFile.IsFull, MultipartFile.Merge", "protocol/t808_0x0801.go: T808_0x0801.Encode, T808_0x0801.DecodePacket"]}
{"id": "C73", "title": "The example client uploads a file of any size", "statement": "The messages the example client sends for a file are parts 1 to n of n, in order, whose contents make up the file. (False: proved for lengths that are multiples of 512, refuted for 700 and 768 bytes.)", "quantifier": "all files", "why_tests_cant": "the loop changes its part size on the way; the one size tried in the source is a multiple of 512", "anchors": ["example/client/client.go: main"]}
{"id": "C74", "title": "A connection among many behaves as if it were alone, apart from the shared storage, handlers and its own requests", "statement": "However the goroutines of any number of connections are interleaved, what the server does for one connection (answers, callbacks, calls of handlers, storing and merging, closing) is what the loop for that connection does on its bytes alone, with the storing and merging of other connections, handler registrations and its own requests happening in between. A connection only stores and merges parts of uploads that arrive on it.", "quantifier": "all numbers of connections, all byte streams on each of them, all schedules of their goroutines and of the goroutines that register handlers and send requests, all results of file operations, all behaviours of handlers and callbacks", "why_tests_cant": "the interleavings are unbounded in number", "anchors": ["session_handler.go: sessionHandler.HandleSession", "server.go: Server.AddHandler, Server.dispatchMessage", "session.go: Session.message, Session.addRequestContext", "multipart.go: MultipartFile.Write, MultipartFile.IsFull, MultipartFile.Merge"]}
{"id": "C75", "title": "Terminals can upload files at the same time", "statement": "Terminals upload different files at the same time, each over its own connection. However the network splits the bytes and however the goroutines are interleaved, the server does not crash, and by the end of each connection (file operations succeeding) the handler registered last was called exactly once for the upload of that terminal, with its file, byte by byte, and every part was answered with success.", "quantifier": "all numbers of terminals, all files and ways to cut them, all splits of the byte streams, all schedules", "why_tests_cant": "files, terminals and interleavings are unbounded", "anchors": ["session_handler.go: sessionHandler.HandleSession", "multipart.go: MultipartFile.Write, MultipartFile.IsFull, MultipartFile.Merge", "protocol.go: ProtocolCodec.Send, ProtocolCodec.Receive"]}
{"id": "C76", "title": "A session does what its handlers and callbacks say, in order, and both ends see the same", "statement": "Whatever messages with registered bodies a terminal sends, however they are split on the way, whatever handlers and callbacks do with the session (reply, send, request, look at the results, panic), whatever the connection refuses and the file system does: the session does not crash; for every message, in order, first the callback of the request it answers and then the handler of its id is run, or it is stored as a part, or answered as unsupported; everything sent by the server, its handlers and its callbacks is numbered consecutively; what happens does not depend on how the bytes were split; and the terminal, reading what was sent in arbitrary pieces, gets exactly these messages. The answer to a request made by a handler always runs its callback, unless 255 messages were sent or the request was replaced in the meantime.", "quantifier": "all handlers and callbacks, all sequences of messages, all splits of the bytes in both directions, all results of sending and of file operations", "why_tests_cant": "handlers, conversations and splits are unbounded; a test sees one handler and one conversation", "anchors": ["session_handler.go: sessionHandler.HandleSession", "session.go: Session.Send, Session.Reply, Session.Request, Session.message", "server.go: Server.dispatchMessage", "protocol.go: ProtocolCodec.Send, ProtocolCodec.Receive", "example/server/server.go: handleAuthentication"]}
{"id": "C77", "title": "The example server and the example client, connected, always have the conversation the source describes", "statement": "Connect the example client to the example server. However the bytes are split and delayed in the two directions, neither program crashes on what the other sends, and the server never sends anything but the expected replies, in order. What is under way can always arrive; if everything sent arrives at some time, the conversation comes to its end; and when nothing is under way any more the server has answered the authentication, the location, the key and each of the four parts of the file, has sent its key and the confirmation of the upload; its handlers were called exactly once each with exactly the contents the client sent, the one for uploads with the whole file; the callback for the parameters was called exactly once with the parameters the client answered; the session has the client's key; and the client has received exactly the ten messages the server sent.", "quantifier": "all interleavings and splits of the two byte streams, all contents of the 2048-byte file, all 1024-bit keys, all clocks, every moment of the conversation, and all courses of events without end in which everything sent arrives at some time", "why_tests_cant": "the schedules of two programs and two byte streams are unbounded in number; running the example shows one of them", "anchors": ["example/server/server.go: main, handleAuthentication, handleReportLocation, handleUploadMediaPacket, handleUploadRsaPublicKey", "example/client/client.go: main", "session_handler.go: sessionHandler.HandleSession", "protocol.go: ProtocolCodec.Receive, ProtocolCodec.Send"]}
{"id": "C78", "title": "A session from which messages come stays open, and a silent one is closed", "statement": "In a running server with any number of connections: the keepalive closes no session from which a message was received within the last period, and it closes every session from which none was received for a period.", "quantifier": "all interleavings of accepting, receiving, dispatching, handlers, ticks and closing, all bytes sent by all terminals, all periods", "why_tests_cant": "the interleavings of the receive loops, the timer and the handlers are unbounded, and tests that wait for real periods see a few of them", "anchors": ["server.go: Server.dispatchMessage, Server.handleReadTimeout, New", "session_handler.go: sessionHandler.HandleSession", "timer.go: CountdownTimer.Update, CountdownTimer.onTick"]}
{"id": "C79", "title": "No handler is called for a session after its close handler", "statement": "Once the close handler of a session has been called, no message handler is called for that session any more, and every handler that was called for it before has returned.", "quantifier": "all interleavings of all goroutines of the server, all bytes sent, all ways of closing a session", "why_tests_cant": "it depends on the moment at which another goroutine closes the session and on what is in its buffer at that moment", "anchors": ["server.go: Server.handleClose, Server.dispatchMessage, Server.handleReadTimeout", "session_handler.go: sessionHandler.HandleSession", "session.go: Session.Close", "protocol.go: ProtocolCodec.Receive"]}
{"id": "C80", "title": "Calls for uploads that overlap do not disturb each other", "statement": "However the storing of parts, the questions whether an upload is complete, the merging and the reading of merged files overlap on several connections, and whatever fails: the question is answered with yes exactly when all parts have been stored, and the handler reads exactly the stored parts in order, as if the calls had been made one after the other.", "quantifier": "all interleavings of the system calls of any number of goroutines, all uploads, all sizes of the pieces in which data is written and read, all failures of system calls", "why_tests_cant": "the harmful interleavings are between two system calls of one call, a few microseconds apart, and there are unboundedly many of them", "anchors": ["multipart.go: MultipartFile.Write, MultipartFile.IsFull, MultipartFile.Merge, MultipartFile.walkParts", "session_handler.go: sessionHandler.HandleSession"]}
{"id": "C81", "title": "No file stays open", "statement": "Once a call for an upload has returned, successfully or not, and the merged file it may have returned is closed, every file that was opened is closed again, and none is closed twice.", "quantifier": "all interleavings, all uploads with any number of parts, all failures at any system call", "why_tests_cant": "each system call can fail, at each part of an upload of any size; a leaked descriptor shows only after thousands of uploads", "anchors": ["multipart.go: MultipartFile.Merge, MultipartFile.Write", "session_handler.go: sessionHandler.HandleSession"]}
{"id": "C82", "title": "The accessors of status words and attributes say what the rest of the message says", "statement": "However often and in whatever order the setters of a status word, an area's attribute or a section's attribute are called, each flag has the value last given to it and nothing else in the word changes. In every message received, at every place of it, GetLatitudeType and GetLongitudeType report the sides of equator and meridian on which the decoded coordinates are, and a point of a route has its thresholds exactly when HasTimeLimit and HasSpeedLimit say so.", "quantifier": "all words, all sequences of calls, all bytes received", "why_tests_cant": "the words, the sequences of calls and the received bodies are unbounded or too many; a wrong bit shows only in the hemispheres nobody tests in", "anchors": ["protocol/t808_0x0200.go: T808_0x0200_Status", "protocol/t808_0x8600.go: AreaAttribute", "protocol/t808_0x8606.go: T808_0x8606_SectionAttribute", "protocol/bit.go"]}
{"id": "C83", "title": "Types of bodies and extras registered by an application work like the built-in ones", "statement": "After any calls of Register, a message is decoded by the type registered last for its message id, and all other ids are decoded as before; a message whose body is of an own type that decodes what it encodes comes back from its own bytes. The server hands such a message to its handlers like any other. The same holds for extras: the items behind a location report are decoded one by one by the type registered last for each id, unknown ones are skipped, and a report with built-in and own extras comes back with those the receiver knows, in order, and without nil ones.", "quantifier": "all own types (any Go type with the required methods, whatever they do), all sequences of registrations, all messages, reports and bytes", "why_tests_cant": "the types are written by users of the package; the registrations and the bytes received are unbounded", "anchors": ["protocol/register.go: Register", "protocol/extra/register.go: Register", "protocol/extra/extra.go: Decode", "protocol/t808_0x0200.go: Encode, Decode", "protocol/message.go: decodeBody", "session_handler.go: HandleSession", "session.go: message"]}
{"id": "C84", "title": "Goroutines can use the server at the same time", "statement": "Any number of goroutines may call the methods of the server, its sessions and its timer at the same time, in addition to the goroutines of the library and the handlers they run: no memory that they share is used in a data race, that is, used twice, at least once for a change, without one use happening before the other (Go memory model).", "quantifier": "every program (any number of goroutines, any calls with any outcomes, handlers and callbacks included) and every schedule", "why_tests_cant": "A data race shows only in particular interleavings; the race detector sees only those that happen in a test run.", "anchors": ["server.go: Run, Stop, GetSession, Broadcast, handleClose", "session.go: Send, Request, SetPublicKey, addRequestContext, takeRequestContext", "timer.go: Update, Remove, SetExpiration, checkExpirationQueue", "protocol.go: ProtocolCodec.Send, ProtocolCodec.SetPublicKey", "protocol/register.go: Register", "protocol/extra/register.go: Register", "protocol/t808_0x0200.go: Encode", "protocol/t808_0x8604.go: Encode"]}
{"id": "C85", "title": "No call waits for ever", "statement": "Handlers, callbacks of requests and the close handler are called without a lock of the library being held and may call everything; from every state that can come about, every goroutine can come to the end of what it is doing: no set of goroutines blocks each other.", "quantifier": "every program (any number of goroutines, any calls with any outcomes, handlers and callbacks included), every schedule and every state it leads to", "why_tests_cant": "A deadlock needs a particular interleaving of goroutines or a particular call from a handler.", "anchors": ["server.go: Stop, GetSession, Broadcast, handleClose, dispatchMessage", "session.go: Request, message", "timer.go: Update, Remove, checkExpirationQueue", "session_handler.go: HandleSession"]}
{"id": "C86", "title": "A broadcast message has the same contents everywhere", "statement": "A body that is sent to any number of sessions, by Broadcast or one by one, goes out on each of their connections with the same contents, in a frame with the header for that session. What is written to each connection are the frames of the messages accepted for that session, in order, and its terminal receives them, whatever happens on the other connections, however slow, broken or closed they are.", "quantifier": "any number of connections, all bodies, all interleavings of callers, send loops and closings, all failures of connections", "why_tests_cant": "The send loops of all sessions encode the same object, and encoding changes some objects; which loop encodes first, and what others do in between, is up to the scheduler.", "anchors": ["server.go: Broadcast", "session.go: Send", "protocol.go: ProtocolCodec.Send", "protocol/message.go: Message.Encode", "protocol/t808_0x0801.go: Encode"]}
{"id": "C87", "title": "The servers shown in the README and the example directory do what they are documented to do", "statement": "The first server of the README answers every location report with success and every message it does not support with that result, and sends nothing else. The second one also queries the parameters of the terminal at every report, and prints those of the answer. The third one answers every part of an upload, acknowledges every complete upload, and its handler reads the complete file. The server of the example directory answers as its handlers say. The messages are numbered in order.", "quantifier": "all bytes that arrive, in all pieces, everything connections and the operating system do", "why_tests_cant": "The servers are to serve any terminal; a test speaks as one terminal, over a connection that delivers pieces of one size.", "anchors": ["README.md", "example/server/main.go", "session_handler.go: HandleSession", "server.go: dispatchMessage", "session.go: Send, Reply, Request"]}
{"id": "C88", "title": "Every message a server sends on a connection carries the number of its terminal", "statement": "When a terminal with a number sends messages on a connection, every message that the session sends, be it a reply of the library itself, a message sent by a handler or callback, or a request, carries this number in its header.", "quantifier": "all messages received from the terminal, all handlers and callbacks, everything the connection and the operating system do", "why_tests_cant": "Which messages come before which is up to the terminal; a test begins with an ordinary message such as a registration.", "anchors": ["session.go: Send, Reply, Request, message", "session_handler.go: HandleSession"]}
{"id": "C89", "title": "Parts of uploads can be stored whoever runs the server", "statement": "A server with automatic merging stores the parts of uploads and delivers the merged upload, whichever user runs the process, as long as this user may create files in the temporary directory.", "quantifier": "all users and umasks, all states of the temporary directory, all sequences of parts from all terminals", "why_tests_cant": "Tests run as one user, often root in a container, for whom permissions do not count.", "anchors": ["multipart.go: Write, rootDir", "session_handler.go: HandleSession"]}
{"id": "C90", "title": "Times and dates keep their value in zones with summer time", "statement": "In every time zone, whether its offset from UTC changes or not, a time that is encoded and decoded is the same instant again, a time that is decoded and encoded gives the same bytes, and a date remains the same date.", "quantifier": "all time zones with any number of changes of the offset, all instants, all byte strings", "why_tests_cant": "Tests run in the zone of the build machine, mostly UTC or China, and at the present; the few instants around a change of the clocks never occur.", "anchors": ["protocol/helpers.go: toBCDTime, fromBCDTime", "protocol/t808_0x0702.go: Encode, Decode"]}
{"id": "C91", "title": "What is encrypted with a key is read by its owner", "statement": "A message encrypted with the RSA public key of a peer, also with one that came in a key upload (0x0A00 or 0x8A00), is decoded by the holder of the private key to the same message; no block decrypts that is not an encryption; and no key upload that is accepted makes later encryption crash.", "quantifier": "all RSA keys (any primes and exponents), all random bytes, all messages, all key uploads", "why_tests_cant": "tests use a few fixed keys; the claim ranges over all keys, all seeds and all blocks, and rests on number theory", "anchors": ["protocol/helpers.go: EncryptOAEP, DecryptOAEP, bytesSplit", "protocol/message.go: Message.Encode, Message.Decode", "protocol/t808_0x0a00.go: T808_0x0A00", "protocol/t808_0x8a00.go: T808_0x8A00"]}
{"id": "C92", "title": "A terminal may encrypt any of its messages", "statement": "A terminal sends some messages encrypted with the server's public key and others in plain text. However the bytes are split, the server's session handles exactly these messages, in order and with their contents; if handlers and callbacks do not look at the encryption flag and the size on the wire, exactly the same happens as if all had been sent in plain text: the same calls, the same replies with the same numbers. A message the server cannot decrypt (no private key, or another one) closes the session after the messages before it were handled; nothing behind it is looked at. With RSA keys of 1024 bits every registered body of at most 602 bytes can be sent this way.", "quantifier": "all sequences of messages with registered bodies, all choices of which are encrypted and with what random bytes, all splits of the bytes, all handlers and callbacks, all results of sending and of file operations, all RSA keys", "why_tests_cant": "The combinations of encrypted and plain messages, splits, random padding and handler behaviour are unbounded; tests try a few.", "anchors": ["protocol.go: ProtocolCodec.Receive, readFromBuffer", "protocol/message.go: Message.Encode, Message.Decode", "protocol/helpers.go: EncryptOAEP, DecryptOAEP", "session_handler.go: HandleSession", "session.go: message", "server.go: dispatchMessage"]}
{"id": "C93", "title": "Terminals can upload files at the same time, whatever the operating system does in which order", "statement": "Many terminals upload different files at once, in parts. However the system calls of the connections that create, write, list, open, copy and read files are interleaved, and however the handlers read the merged files while other connections store and merge, each handler that is given an upload reads from it the file of its terminal: always a beginning of it and nothing else, and the whole file if it reads to the end. All parts are answered, each upload is delivered exactly once, and in general everything handlers, terminals and sessions see is as if every storing, checking and merging were done in one step. The server does not crash unless a system call fails while an upload is checked or merged. If no system call fails, every system call comes back at some time and a connection is served again and again, its upload is stored, merged and delivered at some time, whatever the other connections do. Connections that receive parts of the same upload (same terminal number and media id) are not protected from each other.", "quantifier": "all numbers of connections, all byte streams and splits in which no two connections receive parts of the same upload, all schedules of all goroutines at system-call granularity, all answers of the operating system including short reads and writes and errors, all ways handlers read; all endless fair schedules", "why_tests_cant": "The interleavings of system calls of several goroutines with short writes, failing calls and slow readers cannot be enumerated or forced by tests.", "anchors": ["session_handler.go: HandleSession", "multipart.go: MultipartFile.Write, IsFull, Merge, walkParts", "server.go: dispatchMessage, AddHandler", "session.go: message", "protocol/t808_0x0801.go: SetReader"]}
{"id": "C94", "title": "What handlers do has no influence on what is delivered", "statement": "Two servers with handlers for the same message ids receive the same bytes on a connection. Whatever their handlers and callbacks do with the calls Send, Reply and Request, whether they return or panic, and whatever the connection refuses to send: the same messages are given to the same handlers, the same answers of the server itself are attempted, the same parts are stored and the same uploads merged, in the same order. A handler can influence the rest only through the requests it makes: apart from these, a session with handlers is a session in which handlers do nothing.", "quantifier": "all programs of handlers and callbacks that use the session, all data they keep, all bytes received, all results of the operating system and of the connection", "why_tests_cant": "A test runs one or two sets of handlers; the claim compares all programs with each other, on all inputs.", "anchors": ["session_handler.go: HandleSession", "session.go: message, Send, Reply, Request", "server.go: dispatchMessage, AddHandler"]}
{"id": "C95", "title": "A handler can end its session", "statement": "After a handler or callback has called Close on its session, nothing more is sent on the connection and no further message of the terminal is received or given to a handler.", "quantifier": "for every program of calls that handlers and callbacks make on their session (Send, Reply, Request, Close, depending on results and on data they keep), every sequence of bytes of the terminal cut into any pieces, every behaviour of the connection and of the storage, and every place where Close is called", "why_tests_cant": "whether a message is still handled depends on how the bytes of the terminal happen to be cut into pieces by the network; a test in which the terminal waits for the answer never sees it", "anchors": ["session.go: Session.Close, Session.Send, Session.Request, Session.message", "protocol.go: ProtocolCodec.Receive, ProtocolCodec.readFromBuffer", "session_handler.go: SessionHandler.HandleSession", "server.go: Server.dispatchMessage"]}
{"id": "C96", "title": "Encryption follows the standards", "statement": "What EncryptOAEP makes of a text is the concatenation of the RSAES-OAEP encryptions (RFC 8017, with SHA-1 as in FIPS 180-4 and an empty label) of the pieces of the text, each 42 bytes shorter than the modulus but for the last. What any implementation of that standard encrypts with the public key of the server, in pieces of any lengths one behind the other, DecryptOAEP turns back into the text. The same holds of whole messages: Encode with a key writes the header of the protocol and behind it those encryptions of the bytes of the body, and Decode reads every frame in which a peer has put such encryptions behind such a header.", "quantifier": "for every RSA key with a modulus of more than 42 bytes, every text, all random bytes, and every way a peer cuts its text into pieces", "why_tests_cant": "a test against known results covers a few texts and keys; that masks, padding and hash blocks are those of the standard for every length, and that every peer's choice of pieces is read, is a statement about all of them", "anchors": ["protocol/helpers.go: EncryptOAEP, DecryptOAEP, bytesSplit", "protocol/message.go: Message.Encode, Message.Decode"]}
{"id": "C97", "title": "When Stop has returned, the server is over", "statement": "After Stop has been called no connection is accepted. When Stop has returned, every session is closed and its close handler has returned; GetSession finds none of them, no message is received and no handler is called any more. Stop does return, in every run in which the goroutines are given turns again and again, and the receive loops of all sessions end.", "quantifier": "for every interleaving of the goroutines that accept connections, that serve, close and time out sessions, and of the call of Stop, for any number of sessions and any bytes that arrive, and for handlers and close handlers that return or panic; for every fair run without end", "why_tests_cant": "a test stops a server at a few moments; what is left behind depends on where the goroutine of each session and the goroutines that close them are at the moment of the call", "anchors": ["server.go: Server.Stop, Server.Run, Server.handleClose, Server.GetSession, Server.dispatchMessage", "session_handler.go: SessionHandler.HandleSession", "session.go: Session.Close"]}
{"id": "C98", "title": "Any number of terminals can be in conversation with one server", "statement": "Terminals on different connections do not disturb each other: whatever the others send and whenever, and whatever handlers and callbacks do with their sessions while others are in the middle of theirs, the calls of handlers and callbacks, the messages sent and their numbers, the requests and the uploads on one connection are those of a server with that connection alone, as long as two connections do not upload the same file. Messages and requests that other goroutines hand to a session at any time are numbered together with its own and disturb nothing else. Files that are uploaded at the same time reach the handlers complete. In every run in which the loop of a session is given turns again and again it gets done with what has arrived, and the server does not crash unless a terminal sends a three-byte frame or the directory with the parts cannot be read. The example client completes its conversation with the example server among any other connections, in every run with fair scheduling and a network that delivers everything at some time.", "quantifier": "for every number of connections, all programs of handlers and callbacks, all bytes on all connections cut into pieces in any way, and every interleaving of the receive loops, including in the middle of handlers, of arrivals, of terminals that hang up and of calls of Send and Request by other goroutines; for runs without end with any fair schedule; for all results of storing parts and of merging them", "why_tests_cant": "the loops of thousands of sessions interleave at every call of a handler, of a file operation and of the connection; a test runs a few sessions under the schedules that happen to occur", "anchors": ["session_handler.go: SessionHandler.HandleSession", "session.go: Session.Send, Session.Request, Session.message, Session.reply", "server.go: Server.dispatchMessage", "multipart.go: MultipartFile.Write, MultipartFile.IsFull, MultipartFile.Merge", "protocol.go: ProtocolCodec.Receive", "example/server/server.go: main", "example/client/client.go: main"]}
{"id": "C99", "title": "Uploads survive a restart of the server", "statement": "The server may end at any moment, also in the middle of storing, checking or merging parts, and be started again, any number of times. Parts that were stored stay as they were, whatever is interrupted. A part is answered with \"success\" only directly after it has been stored, so that what a terminal was told stays true after a restart. A terminal that uploads a file and, after the last restart, sends again all parts before the last one that have not been stored completely since it sent them last (at least those without an answer \"success\"), in any order, and then the last part, gets all of them answered with \"success\", and the handler is given exactly one message for it, from which it reads the whole file and nothing else, no matter what earlier processes left behind and what other connections do. This comes to its end in every run in which the connection is given turns again and again and its system calls come back without failing. The files left behind do not crash the server. (A part that was torn when the server ended and is not sent again is not noticed.)", "quantifier": "all numbers of processes, all moments at which each of them ends (between any two system calls), all byte streams, splits and schedules of all connections in each of them, as long as parts of one upload arrive on one connection per process, all answers of the operating system including short writes and errors; and all runs without end of the last process in which the connection is given turns again and again", "why_tests_cant": "The moments at which a process can be interrupted, together with the interleavings and the files earlier processes left, cannot be enumerated by tests.", "anchors": ["multipart.go: MultipartFile.Write, IsFull, Merge, walkParts, rootDir", "session_handler.go: HandleSession", "server.go: dispatchMessage", "protocol/t808_0x0801.go: SetReader"]}
{"id": "C100", "title": "A terminal that has gone does not stay in the server", "statement": "A terminal may disappear at any moment without closing its connection, so that its session waits for it for ever, and a handler of its session may block for ever. Still, as long as the clock goes on and the goroutine of the timer is given turns, every session is closed at some time after its terminal has fallen silent. If the other goroutines are given turns too, the closing and the receive loop come to their ends, the close handler is called exactly once, and from then on neither GetSession nor the maps of the library under the server have the session. (False in one case: a session that is closed before the server has put the close callback in place stays registered for ever, and its close handler never runs.)", "quantifier": "for every run without end of the server, every scheduling of its goroutines that is fair in this sense, every number of sessions, every finite sequence of bytes that each terminal sends, every keepalive period, and whether Stop is called or not", "why_tests_cant": "that something happens at some time in every fair schedule is a statement about infinite runs; a test sees finitely many schedules of finite length", "anchors": ["session_handler.go: SessionHandler.HandleSession", "server.go: NewServer, Server.handleClose, Server.handleReadTimeout, Server.GetSession", "timer.go: CountdownTimer.Update, CountdownTimer.checkExpirationQueue", "session.go: Session.Close"]}
{"id": "C101", "title": "Everything a terminal sends before it hangs up is received and reaches its handler", "statement": "If a terminal sends messages with registered bodies and closes the connection, and nobody else closes the session before (not the keepalive, not Stop, not the application), then all the messages are received at some time, with their contents, each once and in the order in which they were sent, however the network cuts them into pieces. Each of them that is not a part of an upload is passed to the handler registered last for its message number; each handler found is called, and has returned before the session is closed.", "quantifier": "all runs without end in which the goroutine of the session is given turns again and again, all messages, all pieces, all other connections, all behaviours of handlers that end or panic, all registrations of handlers", "why_tests_cant": "it speaks about every schedule without end; a test sees the beginnings of a few", "anchors": ["protocol.go: ProtocolCodec.Receive", "session_handler.go: sessionHandler.HandleSession", "server.go: Server.dispatchMessage, Server.handleClose", "session.go: Session.message"]}
