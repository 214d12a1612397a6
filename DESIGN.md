# Design: a Lean 4 model of mqrstt and proofs about it

`/repo` is read as text; nothing in it is built or run. The model is written by
hand, function by function, from the sources under `/repo/mqrstt/src`; each
definition cites the lines it models. `sync/*` is not declared in `lib.rs`
(dead code) and is not modelled.

## 1. Layout

| directory | contents |
|---|---|
| `lean/Verif/Model/` | executable model of the code, one file per area |
| `lean/Verif/Spec/` | small specifications, written from the English property and MQTT v5, that do not use the model's helpers |
| `lean/Verif/Proof/` | helper lemmas |
| `lean/Verif/Props/` | the property theorems only, named after the property (`C01_…`), each with a non-vacuity `example` |
| `lean/Verif/Conformance/` | the project's own unit tests, transcribed and evaluated in the model by the kernel |

Naming: `Cnn_…` is a theorem for property Cnn, `Cnn_…_partial` proves part of
the property (the docstring says what is missing), `Cnn_…_violated` proves that
the unchanged code violates the property, by a concrete witness.

## 2. Modelling decisions

* **Bytes** are `UInt8`, packet identifiers and keep-alive fields `UInt16`, other
  wire integers `UInt32`; `usize` is `Nat` (64-bit `usize` cannot overflow on
  lengths that fit in memory). Subtractions on `usize` that can underflow in the
  code are modelled explicitly (debug builds panic, release builds wrap).
* **Strings** (`Box<str>`) are byte lists with a proof that they are valid UTF-8;
  `String::from_utf8` is the decidable predicate `validUtf8` written from the
  Unicode well-formedness table.
* **Sync readers** (`Bytes`/`BytesMut`) are functions from the remaining buffer to
  a result and the remaining buffer. **Async readers** are functions from the bytes
  still to come on the stream (end of list = end of file) to a result and the
  bytes left; they also return the byte count the code computes, because the code
  uses the count for loop control. Awaiting more bytes is not a step of its own:
  `read_exact`/`read_u8` depend only on the byte sequence. Dropping a half-finished
  read (`select!`) is modelled separately (C46).
* **Errors** stay data; a **panic** is an explicit outcome (`Fail.panic`,
  `Outcome.panic`).
* **Property structs.** `define_properties!` is one macro instantiated with a list of
  property names. The model keeps that shape: one generic reader, writer and length
  function over a list of entries, plus one list per packet. The hand-written
  sync readers and writers of each packet are modelled with their own tables, as they
  differ (order, checks, error labels).
* **Loops** take fuel that is shown to suffice.
* **Channels** are FIFO lists with a capacity. **Mutex**es vanish (each is held only inside
  one function). **BTreeSet** is a strictly sorted list.
* **Concurrency** of clients and the network task is an interleaving of atomic
  steps: taking an id, submitting the packet, dropping the call, one loop iteration.
* **Time** is a natural number (nanoseconds, as in `Duration`); `sleep(d)` may complete at
  any time not before its deadline. Every look at the clock is an input of the step; clocks do
  not run backwards. The panic of `Instant + Duration` at the end of the clock is modelled apart
  (`Model/Clock.lean`, C81); the histories add without a limit.
* **I/O**: whether a write succeeds is an input of the step. What a failed write leaves on the
  wire is not tracked: every such failure ends the connection, except for tokio's retransmissions
  (C52), which the properties about bytes (C79) therefore assume to succeed.
* **Cancellation**: the future of `run` can be dropped while it waits in `select!`, the future
  of a client call while it waits for room in the queue. Dropping `run` in the middle of a write
  or of the user's handler, and dropping `connect`, is modelled on top of this (`Model/Drop.lean`, C79, C82) and is not part of
  the histories of the other properties.

## 3. Trusted base

Lean's kernel; axioms `propext`, `Classical.choice`, `Quot.sound` only (checked with
`#print axioms` for every property theorem, see section 6); the reading of the Rust code;
the assumed behaviour of `bytes`, `tokio`, `smol`, `async-channel`, `std`
collections and `String::from_utf8` as described above.

The reading of the Rust code is checked in one way: every unit test of the project that exercises
modelled code (`tests/test_packets`, the inline tests of `packets/*`, `state_handler.rs` and
`client.rs`) is transcribed in `Conformance/` and holds of the model. These are tests of the model, not
proofs of properties, and none is listed in MANIFEST.json. Two oversized literals (a user property of
50,000 bytes, a 500-fold payload) are shortened.

Not modelled: logging except the text of `Display` of packets (C83, C84, C99) and errors (C114), `Debug` of packets (the tokio loop's trace lines
`Received incoming packet {:?}` show payloads), test code, TLS/TCP, the scheduler (its fairness is a hypothesis in C57),
memory in bytes (counted in packets and identifiers in C91; the read buffer of smol, C86), `sync/*`, what the example handlers print.

## 4. Plan per property

| id | model | proof |
|---|---|---|
| C01-C02 | `VarInt`: sync and async reader, writer, length | case split on the four sizes, arithmetic; decoder characterised for every byte list |
| C03, C11 | packet writers and `wire_len` | per-packet length lemma, lifted to `Packet` |
| C04-C05 | primitives | round-trip per type, and inversion of each reader (what is accepted is what is written; UTF-8 against Lean's `Char` encoding); C05 violated above 65,535 bytes (witness by length argument), proved below |
| C06-C07, C17 | first byte, reason codes, subscription options | complete finite tables, lifted to all packets |
| C08-C10 | sync and async codecs of all packets | round-trip per packet from a generic property round-trip (induction over the entry list); exceptions are witnesses, and the `_exact_partial` theorems (also for C11) show that every packet in an exceptional class fails |
| C12, C14 | `Packet::read` | prefix and append lemmas for arbitrary buffers |
| C13 | `Packet::async_read` | consumed-byte accounting per packet type for arbitrary streams; witnesses for the types that violate it |
| C15 | all readers | no reader reaches `panic`, by induction over loops; witness for CONNECT |
| C16 | property readers | invariant of the property loop |
| C18 | `ConnectOptions` | definition unfolding plus round-trip of CONNECT; witness for keep-alive ≥ 65,536 s |
| C19, C49, C50 | client calls | decision logic; witnesses for header bytes and leaked ids |
| C20-C24 | pool + clients + queue + session as one transition system | inductive invariant: the concatenation of all id owners is duplicate-free and in range; permutation of 1..=max for leak-free histories; witnesses for leaks |
| C25-C28 | session state machine | refinement to an abstract session (ordered list of outstanding publishes, sets of ids) |
| C29-C35 | `StateHandler` | decision logic on arbitrary states; history-based specification for QoS 2; witnesses |
| C36-C43 | tokio and smol run loops with time | invariants over timed event lists; witnesses; C36 (when `run` starts), C37 (the status is true and follows every DISCONNECT), C38 (order and acknowledgements), C40, C42, C43 and (tokio) C41 also over the histories of `Model/Drop.lean`: a dropped `run` keeps the interval and the time of the last activity, a dropped `connect` leaves what a failed one leaves |
| C44-C45, C51 | smol stream | induction over chunks; witnesses |
| C46 | tokio read future with cancellation | induction without cancellation; witness with |
| C47, C52 | run loop and connect with failing writes | witnesses; positive part for successful writes |
| C48 | connect | decision logic |
| C53-C55 | packet readers, session reset | positive theorems for the accepted forms, witnesses for the rest |
| C56 | both networks | the rules as an automaton over observations; every state of the view has an automaton state, preserved by every step; also with the futures of `run` and `connect` dropped anywhere, under rules that allow a drop in every phase in which something is awaited |
| C57 | both networks | the outgoing branch is enabled in every reachable running state (session invariant), induction over the queue; endless schedules: `Spec/Progress` says what a schedule that does not neglect the queue is, every step of a loop that goes on keeps the queue or writes its head; after dropped futures: a running loop has a stream and a live session (induction over the histories of `Model/Drop.lean`); witness for unencodable packets |
| C58 | client calls | legal arguments give legal packets that both writers encode; witnesses for unchecked arguments |
| C59 | both writers, all packets | `Spec/Wire.lean` describes the wire format as a relation, independently of the code; the layout the writers produce satisfies it; the readers (C60) show that the exceptions do not |
| C60 | both readers, all packets | every byte string related to a packet is read as that packet: property sections by induction over the properties (C16), then field by field |
| C61 | queue between clients and network loop | invariant over histories: accepted minus taken = queue content, at most 100; the submit step succeeds exactly below 100 |
| C62 | handler calls: operations that can happen while the loop waits for the handler (`Spec/Handler.lean`) | violated: with a full queue or no free identifier no such operation makes progress (induction over the operations); partial: enough room and identifiers, by induction over the handler's calls |
| C63 | argument conversions of `subscribe`/`unsubscribe` (`Model/Topics.lean`), `Spec/Args.lean` | what a call makes (C49) is validated, hence well-formed, hence written as the wire format says (C59); translate topic entries back to arguments |
| C64 | the options each network keeps, `connect` of both | the options of the smol network never change, those of tokio only in the keep-alive time; the packet is then `connectPacket` of them (C18); a dropped `run` leaves the options alone, and a dropped `connect` has the effect of a failed one (C82), so that the same holds with dropped futures |
| C65 | both networks; the sender of MQTT as a function of what is observed (Spec/Sender.lean) | the sender and the session agree after every step (`Sends`); each kind of write is then allowed by the session invariant |
| C66 | the histories of C65 together with a server and a lossy network (`World`, Spec/EndToEnd.lean) | only the rules of C65 are used of the client; per identifier there is at most one packet under way and client and server agree about its phase (`Synced`), or the server has begun a session that the client does not know of yet (`Unsynced`); the books of sent, handed-on, refused and discarded messages balance (`Books`) |
| C67 | as C66 | as C66, counting how often each message was acknowledged and handed on |
| C68 | `connect` that fails leaves the previous connection in place | C36 and the definition of `isUp`; witness by evaluation |
| C69 | both networks; the reasons as an inductive predicate over what was observed before (Spec/Origin.lean) | every step's writes come from the queue, from what the same step has read, or from the session's copies (`VStep.source`); queue and waiting calls hold only what was called (`VRun.asked`); C65 traces copies and PUBRELs back |
| C70 | C69's reasons with the legality of C58 and the wire format of C59 | case by case over the reasons; no setter gives authentication data, so the writers' deviation of C59 cannot occur |
| C71 | the send quota of 4.9 as a function of what is observed (Spec/Limits.lean) | the quota and the sender of C65 side by side (`Counted`): what is taken plus what may still be sent again is at most what is in flight; identifiers in flight are different and from 1 to the send maximum |
| C72 | sizes of what both writers make against the last CONNACK | C69's reasons; C19 for calls, copies have the size of the original, answers have 4 bytes |
| C73 | `Supported`, from the properties of CONNACK | C69's reasons; witnesses by evaluation |
| C74 | the aliases set on the connection as a function of what is observed | C69's reasons; witness by evaluation |
| C75 | a server that sends messages of QoS 1 and 2 and sends them again on resumed sessions, added to the world of C66 (Spec/Inbound.lean) | the receiving side as a function of what is observed (`Rcv`, Proof/Inbox.lean) agrees with the session; an invariant of client, network and server (`Inv`, Proof/Inbound.lean): at most one packet per identifier is under way, its phase matches the server's entry, and what is finished or read and unfinished was read as often |
| C76 | the same | the same invariant; first copies are counted: what was read unmarked and what is under way unmarked was begun; witness by a story with one lost connection |
| C77 | answers due and given as a function of what is observed (Spec/Order.lean) | the receiving side of C75 remembers the packet read last, and every answer is to that one (Proof/Order.lean); witness with two identifiers |
| C78 | the world of C66, without refusals by the server; order with repetitions (Spec/Sequence.lean) | invariant: what is not acknowledged is what the server took from this connection, then what is under way, then what is still to be sent again, and a first part of it has been handed on (Proof/Sequence.lean); smol sends everything again before `connect` succeeds; witness for tokio |
| C79 | the bytes written on the newest connection and smol's write buffer, on top of both networks; dropping `run` in the handler and after any number of bytes of a write (Model/Drop.lean) | the wire is the encodings of the packets written (induction over histories), each legal by C70; MQTT's format is unambiguous without exception (Proof/Unambiguous.lean: every field announces its end), so there is one reading only, and an initial part of the bytes holds an initial part of the packets; dropped handlers included, because everything that waits or is stored in the session came from a legal call (Proof/Dropped.lean, Proof/Cuts.lean); with dropped writes at most one packet is cut for each; witnesses for dropped writes and handlers |
| C80 | the example handlers on the client of Model/System.lean (Model/Handlers.lean); `to_lowercase` as far as the search can tell | case analysis of the handler with the client's call; the search in the lowercased text is the search for the four letters in either case, by induction over the text |
| C81 | the sum at the start of each turn of `run`, with a last instant (Model/Clock.lean) | the interval in force is the configured one or a server's (C43), no instant kept is later than now; witness with `Duration::MAX` |
| C82 | `connect` dropped before the answer, in the handler or while packets are sent again (Model/Drop.lean) | every dropped call ends in the state of a failing call in another environment; induction on the history; C79's theorems cover such histories too |
| C83, C84 | `impl Display for Packet` as bytes (Model/Display.lean) | the text is that of the packet with the content blanked; every part of the text but topic and client identifier is one line |
| C85 | both networks with the clients dropped at any point (the identifier channel is closed) | the channel is closed exactly when the clients are gone; count of submitted, written and queued packets as an invariant over all steps |
| C86 | the read buffer of the smol network, `smolRx` for what has arrived and what has been processed | the invariant of C44 (the buffer is what follows the packets processed) with the bound on frames; the violation for every number of reads by induction |
| C87 | the identifier channel in the histories of C20-C28; availability from the ledger | every step takes the identifier at the front or adds others behind; handed out followed by available starts with what was available before |
| C88 | both networks; `Spec/Requests.lean`: which acknowledgements are awaited, from what was written and read | the ledger invariant of C65 for publishes, a second simulation (`Knows`) for subscribe and unsubscribe requests, then the session facts behind C32 |
| C89 | both networks; `Spec/KeepAlive.lean`: an unanswered PINGREQ, from what was written and read | that a PINGREQ is waited for is an invariant of all steps that do not end the wait, then the timer's turn is computed; the violation by induction on the number of messages |
| C90 | both networks; `Spec/Reconnect.lean`: a network that still exists, a connect that succeeds | the session invariant excludes every failure of the CONNACK handler except a closed identifier channel; legal options and requests can be written (C79's lemmas); with dropped futures by the facts of C109 |
| C91 | the collections of the session state, the queue and the identifier channel, counted in `Spec/Memory` | the invariant of C20-C28 ties every identifier remembered to the identifiers handed out, which are send maximum many; C39 and C61 for the queue; the set of received identifiers is sorted |
| C92 | the session histories of C20-C28; `Spec/Complete`: the answers owed, read off the ledger | every answer that is due is accepted (session invariant) and lowers the number owed by one; while it is not zero an answer is due |
| C93 | both networks; `Spec/Goodbye.lean`: failed runs | every step either appends what was submitted to the queue or takes its head and writes it (`VStep.moves`); so, without failures, the packets written are the first ones accepted |
| C94 | both networks; `Spec/Goodbye.lean`: runs ended by the user, accepted disconnect calls | the same account of the queue, counting DISCONNECTs |
| C95 | `connect` and the read branch of `run` of both networks; `Spec/Patience.lean`: bytes that are, or can never become, a packet | a decoder that fails for another reason than lack of input fails in the same way on every continuation; the reading loop of smol ends when its input ends |
| C96 | options and both networks; `Spec/Told.lean`: what was announced, which aliases the server has set, the topic meant | every CONNECT is made from the options (C64), in which no setter sets the topic alias maximum; the handler sees what was read (C38) |
| C97 | both networks; the wire model of C79 for the violation | a QoS 0 publish is written only from the queue (C65), and the queue is first in, first out (C39) |
| C98 | both networks up to the first `run` | induction over the history: the sender of C65 has nothing to send again |
| C99 | `Packet.display`; `Spec/Shown.lean`: what there is to tell, the names of table 2-6, readers of digits and of string literals | the text is read back: every part ends where no character of it can stand; the text after a topic has exactly four colons |
| C100 | both networks; `Spec/Answers.lean`: the answer demanded, what follows a read | every position of every step of the view of both networks |
| C101 | both networks; `Spec/Answers.lean`: unfinished messages, limits in the last CONNECT | induction over the steps: on a live connection nothing of QoS 1 is unanswered between steps, and a step reads at most one packet |
| C102 | the codecs; `Spec/Auth.lean`: data without a method | the writers skip or refuse it, by cases on the packet; the check after the properties of the buffered CONNECT reader |
| C103 | `Model/Drop.lean`; `Spec/Interrupt.lean`: calls and drops of a history | every drop is no step or one step of the session whose packet the handler may have missed; induction over the history |
| C104 | both networks; `Spec/Heard.lean`: endless schedules, a packet that waits to be read | two readings of the same bytes agree as far as both go; the number of packets missing decreases with every read of a waiting packet |
| C105 | both readers, all packets; `Spec/Liberty.lean`: the wire format of C59/C60 with liberties | inversion of every reader: what was read is related to the packet returned; property sections by C16; with no liberty the relation is that of C60; one byte string per liberty that needs it |
| C106 | both networks with the decoders (C44, C46), `Spec/Wire.lean` for what the server sends | the readers take no legal packet of a server for another (C60, C53, C54), then induction over the packets processed; the other direction by C105 |
| C107 | `Model/Drop.lean` against the whole turns of `Model/Tokio.lean` and `Model/Smol.lean`; `Spec/Partway.lean` | a dropped step exists exactly if the whole turn shows a place to drop it, by cases over the branches; what is left is determined by the place |
| C108 | both networks with the decoders and the session; `Spec/Calm.lean` for what a server has reason to send and which ends are expected | every branch of one turn: bytes of a conforming server are never hopeless (C95, C106), packets in their place are taken (C88), everything queued or answered can be encoded (C70), the head of the queue can be written (C57) |
| C109 | `connect` of both networks with the decoders and the session; `Spec/Verdict.lean` says how it should end | a case per cause: a part of a readable packet is neither complete nor hopeless (C95, C106); on smol a read that would go on with more chunks is waiting, and ends with the stream; the session takes every CONNACK that accepts (C90), and what is sent again can be encoded (C70); after dropped futures: the session is still one that a session can be in (C103), and dropping changes neither the options nor whether network and clients exist |
| C110 | all readers of both codecs; `Spec/Blame.lean` says when an error is justified | a predicate on readers, closed under sequencing: an error is justified by any bytes around those the reader saw, and a reader reads from the front; the property loops carry the properties read so far |
| C111 | both networks; `Spec/Portable.lean` says which uses are compared | simulations both ways: for every step of one network some steps of the other with the same observations; the smol buffer and the tokio input hold the same stream, cut differently |
| C112 | both networks; `Spec/Reasons.lean` says what each error claims | case analysis of the step that ends `run` or `connect`; each kind of error is traced back with the invariant of the session (C65), of the stream (C46) or the theorem about decoding errors (C110) |
| C113 | the clients and both networks; `Spec/Refusals.lean` says what each error claims | the refused call is a step of a client; case analysis of validation; the network is gone only after it was dropped or panicked (C90) |
| C114 | `#[error]` texts and derived `Debug` (Model/ErrorText.lean) | the beginnings of the texts differ; numbers and names are read back from either end; digits and names are compared with `Spec/ErrorText.lean` (titles from the MQTT tables) |
| C115 | the clients and both networks; `Spec/Refusals.lean` says which calls can be served | the network exists exactly until something ends it; the identifiers never handed out are in the pool; validation agrees with the sizes sent up to the fixed header |
| C116 | both networks; `Spec/DeadEnd.lean` says which steps are allowed and what finished means, with the sender of C65 | the way on is built: cancel, connect, run; one write for each packet that waits, connecting again after a DISCONNECT; then one answer after the other, by induction on the number owed (C92). Both runtimes are instances of one structure; the networks in which futures were dropped are two more instances (`Proof/DeadEndDrop.lean`) |
| C117 | both networks; `Spec/Panic.lean` names the causes | C34 gives the session steps that panic, C15 the decoder; the buffered readers never report the end of the stream (`Proof/NoEof.lean`), so the parser of smol panics exactly for the named bytes; the unprocessed bytes are those of C51. For `connect` on smol `Spec/Pieces.lean` says in which pieces an answer makes it panic, by induction on the pieces (`Proof/Pieces.lean`); after dropped futures: from C103, as the causes depend only on the session being reachable |
| C118 | the session (`Sys`), any history; `Spec/Reorder.lean` defines exchanges and reorderings | every accepted packet acts on the state by removing and adding its own identifiers (`incoming_iff`); the sets are sorted in every reachable state, so two such acts with different identifiers commute up to the queue of free identifiers; induction on the sequence, moving one packet to the front |
| C119 | the session (`Sys`), any history; `Spec/Content.lean` defines the replacement of content | every function of the session and the clients commutes with the replacement; induction on the history |
| C120 | both networks, any history; `Spec/Later.lean` defines the same history `d` later | every function of the networks commutes with the shift of all times; induction on the history. Also with dropped futures (`Model/Drop.lean`), where the bytes on the connection are the same |
| C121 | both networks, any history; `Spec/Identity.lean` defines which options may differ and the replacement of CONNECT | every function of the networks commutes with the exchange of the options; no CONNECT ever waits in the channel; induction on the history. Also with dropped futures, where the two states are related but for the bytes written |
| C122 | smol, any history, `checks` on and off | the parser and the blocking reader give the same without checks unless they panic with them; every other function ignores `checks`; induction on the history; with dropped futures the same for the functions of `Drop.lean`, over histories that the debug build can go through |
| C123 | both networks, any history; `Spec/Limit.lean` | a call not refused for size is validated alike under a larger limit; nothing else reads the limit; then as C121, also with dropped futures |
| C124 | both networks, any history without a timer turn, also with dropped futures; `Spec/Untimed.lean` | unwinding: states equal but for options, keep-alive and ping flag take equal steps to such states, with the same events but for CONNECT |

Every property is expressible; none is marked not applicable. For properties that touch the runtime (timers,
cancellation, write failures) the model carries the loop's logic; that the executor eventually
polls a ready branch is a hypothesis where it is needed (`FairTokio`, `FairSmol` in C57), not modelled.

## 5. Disagreements between the code and the properties

Each is a theorem `Cnn_…_violated` with a concrete witness. The sources were left unchanged.

| property | what the code does |
|---|---|
| C05 | a string or binary value longer than 65,535 bytes is written with its length modulo 65,536, without an error |
| C08, C09, C53 | a PUBREC or PUBCOMP with a reason code and no properties is written in the three-byte form, which the buffered readers refuse and the streaming ones misread |
| C08 | the buffered reader refuses every payload format indicator of a last will (`is_none` for `is_some`) |
| C08, C09, C11 | empty authentication data is lost, and in CONNACK/CONNECT the announced size is wrong |
| C09, C10 | the streaming reader stops a SUBSCRIBE after its first topic and leaves the rest in the stream |
| C09, C10, C11 | the streaming writer announces the assigned client identifier of a CONNACK but does not write it |
| C11 | the streaming writer reports too few bytes for a server reference |
| C12 | after an undefined first byte or a length that does not end the buffered reader leaves the bytes in the buffer; only then (`C12_exact_partial`) |
| C13 | streaming: a three-byte PUBREC swallows a byte of the next packet; trailing bytes of CONNACK and PINGRESP stay in the stream |
| C15 | the buffered reader panics on a CONNECT that breaks off within the keep alive time or within a number among its properties; only then (`C15_exact_partial`) |
| C16 | SUBACK sections accept the property of SUBSCRIBE; streaming SUBSCRIBE accepts a repeated subscription identifier; buffered PUBACK-like sections ignore the announced length |
| C54 | a SUBACK with a reason string, which MQTT allows, is refused |
| C18 | a keep-alive of 65,536 s or more is announced modulo 65,536 |
| C19 | the size check leaves out the fixed header |
| C23, C50 | an identifier is lost for ever after: a PUBREC with an error code, a call that fails validation, a call dropped while it waits, the loss of the session while a QoS 2 publish waits for PUBCOMP |
| C27 | a fresh session does not give back the identifiers of publishes that wait for PUBCOMP |
| C31 | a QoS 2 message whose first copy was lost and is repeated with DUP is acknowledged and never delivered |
| C32 | PUBACK completes a QoS 2 publish, PUBREC is accepted for a QoS 1 publish |
| C34 | PUBACK/PUBREC with identifier 0 or above the receive maximum panics the client; so does an own publish whose identifier is above the receive maximum |
| C41 | smol: with keep-alive off, `run` ends with a keep-alive timeout after an hour; the time of an unanswered ping survives a dropped run |
| C42 | smol: incoming packets postpone the ping although nothing is written |
| C43 | the server's keep-alive sticks to later connections; once off it is never on again |
| C45 | smol: one packet is processed per read, so a packet that arrived with others waits for further bytes; also one that arrived with the CONNACK |
| C46 | tokio: bytes of a half-read packet are lost when another branch of `select!` completes, or when `run` is dropped |
| C47 | a publish whose write fails is forgotten: not in the queue, not retransmitted |
| C51 | smol: some splits of a CONNACK make `connect` panic or wait for ever |
| C52 | tokio: errors while retransmitting are dropped |
| C55 | the identifiers of received QoS 2 messages are forgotten when a session is resumed |
| C57 | an accepted packet that cannot be encoded (subscription identifier above 268,435,455) ends `run` and is dropped |
| C58 | SUBSCRIBE without topics, PUBLISH to a wildcard and unencodable properties are accepted |
| C59 | AUTH, CONNECT, CONNACK with empty authentication data: both writers leave it out; the streaming writer announces but does not write an assigned client identifier |
| C60 | the misread forms of C08, C09, C53 and C54 are legal MQTT |
| C62 | a client call made inside a handler waits for ever when the queue is full or no identifier is free: the loop that would make room waits for the handler |
| C64 | tokio: after a server has named a keep-alive time, later CONNECTs announce that time instead of the configured one |
| C68 | after a cancelled `run` and a `connect` that fails, `run` goes on with the old connection; if the server had already accepted the new one, an old PUBACK can be taken for the acknowledgement of a new message |
| C71 | the receive maximum of CONNACK is not looked at: more QoS 1 and 2 publishes are under way than the server allows |
| C72 | the maximum packet size of CONNACK is not looked at |
| C73 | maximum QoS, retain available, topic alias maximum and the subscription features of CONNACK are not looked at |
| C74 | a PUBLISH with a topic alias instead of a topic is sent again as it is on a new connection, where the alias is not set |
| C76 | a QoS 2 message whose first copy is lost with the connection is sent again by the server with DUP, answered by the client and never given to the handler (C31 seen from both ends) |
| C77 | PUBRELs that are sent again on a resumed session go out in the order of their identifiers, not in the order in which the PUBRECs came: PUBREC 2, PUBREC 1, connection lost, then PUBREL 1, PUBREL 2 |
| C78 | tokio: when a message cannot be written again on a resumed session `connect` reports success all the same (C52), `run` sends newer messages and the older one follows only on the next connection: the server hands message 2 on before message 1 |
| C79 | dropping the future of `run` while a packet is written: tokio has taken it from the queue and put some bytes on the wire; `run` goes on with the next packet, so the server takes that for the rest of the first (a message nobody sent), or, if no byte was out, a QoS 1 message is lost for good. smol keeps the packet in `write_buffer` and writes all of it again with the next one: a QoS 0 message arrives twice, or the stream is garbled. Dropping it while the handler is at work: the message has been processed and is never answered |
| C80 | `PingPong` takes the first ten bytes of each text as `&payload[0..10]` before looking at it: if a character goes across that point it panics, so one message such as nine `a` and an `é` ends `run`. Also at the 65,536th message where overflow is checked, and at a ping larger than the client's maximum packet size |
| C81 | `set_keep_alive_interval` accepts every `Duration`; `run` adds it to an `Instant`, which panics for `Duration::MAX` and the like |
| C83 | the text of a CONNECT contains the password in clear, and with the feature `logs` every connect writes it to the log (`Sending packet Connect(... password: Some("...") ...)`) |
| C84 | topic and client identifier go into the text as they are: a topic `a\nSending packet PingReq\n` writes a line into the log that looks like a PINGREQ; with smol the topic may be one the server sent |
| C85 | after the last client is dropped the first PUBACK, PUBCOMP, SUBACK or UNSUBACK ends `run` with `PacketIdChannelError`, because the identifier cannot be given back to a closed channel; messages still in the queue are not written |
| C86 | `smol_select` processes one packet per read of up to 4096 bytes; when a server keeps sending small packets so that two of them arrive per read, after n reads n whole packets are kept unprocessed, for every n: the buffer and the delay of delivery grow without limit |
| C88 | a PUBACK completes a QoS 2 publish (and a PUBREC is taken for a QoS 1 publish); a PUBACK or PUBREC with an identifier above the receive maximum panics inside `run`; once the last client is gone the awaited PUBACK, PUBCOMP, SUBACK or UNSUBACK ends `run` with an error |
| C89 | PINGREQ is sent only after an interval without writing: a client that goes on sending QoS 0 messages to a server that has vanished never pings and never notices, for any length of time (until the transport itself reports an error) |
| C90 | after the last client is gone, the first `connect` that finds an unacknowledged SUBSCRIBE or UNSUBSCRIBE (or, without a session, publish) returns `PacketIdChannelError` although the server has accepted |
| C94 | `disconnect` called while there is no connection (after the server closed it, say) is accepted and stays in the queue; it is written first thing on the next connection and ends it |
| C97 | smol: the future of `run` dropped while a QoS 0 message is being flushed; the message stays in the write buffer and is written again with the next packet |
| C98 | a CONNACK with "session present" is accepted by a client that has no session, and by one that has asked for a new one |
| C101 | a packet larger than the announced maximum packet size is processed; QoS 2 messages beyond the announced receive maximum are processed |
| C102 | CONNACK and AUTH with authentication data but no method are accepted by both readers, CONNECT by the streaming reader; `connect` succeeds with such a CONNACK |
| C104 | a packet whose first bytes were taken by an abandoned read (tokio), or that arrived together with another one (smol), may never be processed |
| C105 | both readers accept lengths in more bytes than needed, reserved bits, authentication data without method and the subscription identifier in SUBACK; the buffered one trailing bytes and over-long properties of publish acknowledgements, the streaming one repeated subscription identifiers and wrong packet lengths |
| C106 | the streaming reader reads on into the next packet after a PUBREC or DISCONNECT without property length and after an AUTH without reason code: a message following such a PUBREC can be taken for its properties and lost |
| C108 | with a legal user and a conforming server `run` still ends with an error of its own making: an abandoned read (C46) followed by a decoding error (tokio), short forms that are refused (C53), a panic on an unlucky split in builds with overflow checks (smol) |
| C109 | `connect` panics if the CONNACK is split badly (smol, C51), fails if the last client is gone with a request unacknowledged (C90), and succeeds although the connection does not take a retransmission (tokio, C52) |
| C110 | an unknown reason code is reported as an unknown property; a repeated reason string of AUTH or UNSUBACK, and in the streaming decoder a repeated topic alias or maximum packet size, is reported under the name of another property; the payload format indicator of a will is called repeated the first time; the reason string of SUBACK is called not allowed; the streaming decoder says PUBREL whatever the packet |
| C111 | without keep-alive, and after a dropped `run`, smol reports timeouts that tokio never reports; if the answer to a CONNECT cannot be decoded, `connect` of tokio says why and `connect` of smol only that there was an I/O error |
| C112 | tokio: half a message arrives, the client publishes, the other half arrives, and `run` reports a first byte that begins no packet, although the server sent messages only; both: a DISCONNECT with an unknown reason code is reported as an unknown property; smol: an answer to a CONNECT that is no packet is reported as an I/O error |
| C113 | a publish that is sent in 36 bytes is refused with the size 34 |
| C114 | the text of `HandlerError::Unsolicited` is the same for a PUBACK and a PUBREC; with a maximum of 20 bytes the text says `larger than allowed 34` |
| C115 | with a maximum of 20 bytes a publish that is sent in 22 bytes and a disconnect that is sent in 54 are accepted |
| C116 | a publish with a subscription identifier above 268435455 is accepted by the call and is never written, whatever happens afterwards |
| C117 | `run` panics on a PUBACK for identifier 0 (C34); on smol with overflow checks on a publish that arrives without its last byte; `connect` on smol panics if the CONNACK arrives in pieces of 3, 1 and 1 bytes (C51); with a send maximum above the receive maximum the client's own publish does it |
| C122 | smol: `parse_message` subtracts the length of the buffer (with header) from the remaining length: a publish that arrives without its last byte panics in a debug build and is delivered in a release build |

## 6. Axioms

`#print axioms` for every theorem named in MANIFEST.json gives a subset of `propext`,
`Classical.choice`, `Quot.sound`; no theorem depends on `sorryAx` or on compiled evaluation.

## 7. Tests against wrong programs

`seeded/LOG.jsonl` has one line per wrong program: the edit was made in a scratch copy of the
model, the project was rebuilt, every proof that failed was replaced by `sorry`, and the
property theorems that depend on a failed proof were collected with `#print axioms`.
