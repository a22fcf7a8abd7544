# Formal model of virtual-fido: design

The code in `/repo` (Go, `go 1.19` in go.mod) is modelled in Lean 4 under `lean/Verif`.
`properties.jsonl` lists the properties, `MANIFEST.json` maps them to theorems,
`seeded/LOG.jsonl` records the mutation tests.

## 1. Layout

| directory | content |
| --- | --- |
| `Verif/Base` | Go monad with panics, byte strings, integer encodings |
| `Verif/Model` | the model, one file per Go source file, each definition citing the lines it models |
| `Verif/Spec` | small specifications written from the published standards (CTAPHID, CTAP2, U2F, USB, USB/IP) or from the English property; they do not use model helpers |
| `Verif/Proofs` | helper lemmas |
| `Verif/Props` | the property theorems `Cnn_...` and, beside each, a concrete case meeting its hypotheses |

## 2. Modelling decisions

* **Go functions** become total Lean functions. A panic is an explicit result
  (`Res.panic`). Stateful code lives in `Go W α := W → Res α × W`; the state after a
  panic is kept, because what was saved before a crash matters.
* **Panics kill the process**: `usb_device.go:88` handles every OUT report in a fresh
  goroutine with no recover. Only the USB/IP command loop recovers (`util.Try`).
* **nil and empty slices** are distinguished (`Option Bytes`) wherever the code compares
  with nil (PIN hash, pinAuth, allow list, coordinates, saved data).
* **Slice capacity** is modelled where it is observable (`payload[:8]` of INIT).
* **Loop variables**: go.mod says `go 1.19`, so a `range` loop has one variable for all
  iterations; `&source.RelyingParty` (identity_vault.go:118) and `&id` (demo.go) alias it.
* **Randomness, user answers, Go map order, scheduling, TCP segmentation** are inputs
  (oracles) and every theorem quantifies over them.
* **Cryptography, CBOR decoding of host input, JSON text, X.509/DER** are parameters of the model
  (`Env`). Theorems hold for every choice of them; where a theorem needs a law
  (e.g. "a signature verifies", "decryption inverts encryption") the law is a field of
  an explicit hypothesis structure, shown satisfiable by a concrete instance.
* CBOR *encoding* (CTAP2 canonical) is modelled concretely down to bytes, with a
  reference decoder proved to invert it.

## 3. Trusted base

* Lean's kernel, and the axioms `propext`, `Quot.sound`, `Classical.choice` (standard); no
  other axiom, no `sorry`, no `native_decide`, no `bv_decide`.
* That the definitions under `Verif/Model` say what the cited Go lines do (by reading).
* Assumed behaviour of external code. It enters in two ways:
  * concretely modelled: Go's `encoding/binary` (rejects non-fixed-size values, `io.ReadFull`
    semantics), `bytes.Buffer`, slices, `big.Int.Bytes`, `strconv.ParseInt`, `strings.ToLower`
    (parameter with `LowerOk`), CBOR *encoding* of `fxamacker/cbor` 2.4.0 in CTAP2 mode;
  * as fields of the structure `Env` (`Model/Env.lean`), about which a theorem may assume only
    `Laws E` (`Spec/Laws.lean`): SHA-256, HMAC, AES-CBC, AES-GCM, scrypt, key generation,
    signatures, ECDH, DER/X.509, JSON, CBOR *decoding*, random bytes, the user's decisions.
    The laws are functional correctness only (decryption inverts encryption, signatures verify,
    lengths, decoders invert encoders); no secrecy or unforgeability is assumed.
    `Proofs/Toy.lean` gives an environment satisfying all of them (`toy_laws`), so no theorem
    assuming `Laws E` is vacuous for that reason.

## 4. What is modelled

| Go | Lean |
| --- | --- |
| `util/util.go`, `util/*.go` (encodings, `Try`, `Pad`, `Concat`, ...) | `Model/Util`, `Base/*` |
| `util/request_buffer.go` | `Model/RequestBuffer`; split at its unlocks in `Model/Concurrency` |
| `util/log.go` | `Model/Log` |
| `util` recurring function (keep-alive) | `Model/Concurrency` |
| `usbip/usbip.go`, `usbip/usbip_server.go` | `Model/UsbIp` |
| `usb/usb.go`, `usb/usb_device.go` | `Model/Usb` |
| `ctap_hid/*.go` | `Model/HidTransaction`, `Model/HidServer` |
| `ctap/ctap.go`, `webauthn/*.go` | `Model/Ctap`, `Model/Types` |
| `u2f/u2f.go` | `Model/U2f` |
| `cose/cose.go` | `Model/Cose`, `Model/BigInt`, `Model/Cbor` |
| `crypto/crypto.go` | `Model/Crypto`, `Model/Env` |
| `identities/*.go` | `Model/Vault`, `Model/SavedState`, `Model/Client` |
| `fido_client/fido_client.go` | `Model/Client` |
| `client_usbip.go`, `virtual_fido.go` (composition) | `Model/Device` (requests, API calls, restarts), `Model/Stack` (USB/IP + USB + HID with goroutines and timers), `Model/Whole` (everything) |
| the same, with requests of different channels at the same time | `Model/Overlap` (handlers of `ctap.go`, `u2f.go`, `fido_client.go`, `identity_vault.go` again, one step for each access to shared memory) |
| goroutines that handle reports (`usb_device.go:88`), `ctap_hid.go`, `channel.go` with both locks, step by step | `Model/Reports` |
| these goroutines and the authenticator they call | `Model/Live` (`Model/Reports` with `Model/Overlap`) |
| the same behind a USB/IP connection: command loop, goroutines, authenticator, sender, timers in any order | `Model/Server` (`Model/Stack` with `Model/Live`) |
| `mac/mac.go`, `mac/client.c`, `client_mac.go`, and of the macOS driver and its library: reports, their list, notifications, frames | `Model/Mac` (around `Model/Live`) |
| of the macOS driver also its memory (`util.cpp`, `USBUserClient.cpp`, `USBDevice.cpp`), and of `mac/client.c` and `mac/mac.go` what they allocate | `Model/MacMemory` |
| `cmd/demo/demo.go`, `cmd/demo/server.go`, `cmd/demo/exec_*.go` | `Model/Demo`, `Model/Processes`, `Model/Launch`, `Model/Listener` |

Not modelled:

* the macOS driver beyond that (its start, its device description, the system's own reference counts),
  the macOS installer and tester, the system's `usbip` program (what it sends is in `Spec/Attach`),
  `cmd/tools/tools.go`, cobra command-line parsing, tests;
* log text formatting (`fmt.Sprintf`, `String()` methods) and the log statements of the transports; the log plumbing is modelled
  (`Model/Log`), and so are the log statements of `ctap.go`, `u2f.go` and `fido_client.go` (`Model/Logged`);
* Go memory-model effects of data races beyond the interleavings stated in C18, C19, C72, C73, C93-C110
  (that goroutines may use the channel table at the same time is C111; what the Go runtime then does, such as
  ending the process, is not modelled);
* in `Model/Stack` and `Model/Server` the handling of one USB/IP command, of one delivery and of one
  time-out are atomic steps, taken in any order (`Model/Concurrency` splits deliveries and time-outs); in `Model/Stack`
  also the handling of one report;
* timing beyond the order of events.

## 5. Per-property plan

| property | modelled | how proved |
| --- | --- | --- |
| C01 | transaction.go, channel.go step function | induction over continuation reports against `Spec.Fragmentation` |
| C02 | createResponsePackets, Pad | induction on the packet loop; host-side reassembler in Spec |
| C03 | same as C01 | invariant over histories: open transaction = a window of the history |
| C04 | same, permutations of reports | from C03 and distinct sequence numbers; witness for the refuted half |
| C05 | HID server channel table | projection (simulation) by induction on the history |
| C06 | HID server | direct symbolic execution for all states |
| C07 | newChannel | invariant on the table and counter; reachability of the wrap by induction |
| C08 | broadcast INIT | symbolic execution with the C01 lemmas |
| C09 | PING | composition of C01 and C02; witness for length 0 |
| C10-C13 | HID server | case analysis on the step function |
| C14 | HID server | iff characterisation by case analysis; witnesses of crashes |
| C15-C17 | request_buffer.go, usb_device.go timer | invariants over op histories with nondeterministic choice |
| C18 | request_buffer.go split at the unlock | small-step interleaving invariant; witness for two responders |
| C19 | lock-protected append by n threads | small-step invariant |
| C20 | handleCommandSubmit | direct, all lengths |
| C21 | connection reader over segmented streams | refinement to the list of commands by induction; witness for splits |
| C22 | ToBE on a struct with a slice | refutation for all device lists |
| C23 | handle | symbolic execution |
| C24 | handle/handleCommands with EOF | invariant: never leaves the loop |
| C25 | Start's prefix test on rendered addresses | case analysis over octets |
| C26 | Try loop | induction |
| C27, C28 | usb.go, usb_device.go | computation over the complete finite domain |
| C29-C33 | cose.go, attestation.go, big.Int bytes | round-trip lemmas; witnesses for RSA/Ed25519 defects |
| C34 | CBOR encoder of the answer structs | structural induction; canonicity predicate in Spec |
| C35, C36 | identity_vault.go | list induction |
| C37, C38 | Export/Import with shared loop variable | induction; witness for two relying parties |
| C39 | saved_state.go over abstract AEAD/KDF/JSON | direct from laws |
| C40, C41 | whole client with store | invariant over histories |
| C42 | file with crash points | witness, and partial theorem for completed saves |
| C43-C52 | ctap.go + fido_client.go | weakest-precondition style symbolic execution; witnesses |
| C53-C61 | ClientPIN | same; C56 by induction over histories |
| C62-C68 | u2f.go | symbolic execution; AEAD law for handles |
| C69 | log.go | invariant over histories |
| C70, C71 | cmd/demo | list lemmas; witnesses; the answer parser as an equivalence |
| C72 | StartRecurringFunction | small-step transition system |
| C73 | counter read/increment split in steps | witness schedule and serial theorem |
| C74, C75 | usbip + usb | induction on the command stream; case analysis on setup packets |
| C76, C77 | ctap.go, fido_client.go | progress: symbolic execution from the healthiness invariant |
| C78 | histories with restarts | C38 carried through `Device.run`; witness |
| C79-C82 | cmd/demo | string lemmas; induction on reads; composition with C40, C53-C59 |
| C83, C84 | Model/Stack | invariant over every schedule relating waiting polls, queues and replies |
| C85 | Model/Stack | composition of C01, C02, C74, C84 |
| C86 | Model/Whole | refinement: the stack with any schedule by `Device.run` on a list of requests |
| C87 | Model/Ctap, Model/Device | decision tables in Spec/Status; invariants over histories for what the tables presuppose (retries, token, attestation key) |
| C88 | Model/U2f, Model/Device | decision tables in Spec/U2fStatus for every byte string; sealing key and attestation key kept over histories |
| C89, C90, C91 | Model/Device | invariant over histories: the vault equals what the exchanged messages announce (Spec/Store), then C45-C47 |
| C92 | Model/Device | at most one question per step, by symbolic execution; counting by induction over histories |
| C93 | Model/Overlap, one step for each memory access | simulation of each handler by its sequential form, then induction over events |
| C94, C95 | same, any interleaving | rely-guarantee: each handler is safe in any surroundings; invariant over events |
| C96 | same, killed between any two steps | the invariant has what the store holds |
| C97 | same | rely-guarantee with surroundings that keep the PIN switched on |
| C98 | same | each handler traced until it is entitled; invariant over events |
| C99-C101 | same | refuted: schedules for every number of guesses, two creations, a creation and a save, two logins |
| C73, C99, C100, C101 (positive part) | `Spec/Exclusive.lean`: operations of one kind one at a time, all else interleaved | rely-guarantee logic `Runs`: the others keep the counter (retries, list of credentials, saved data), each operation of the kind changes it as on a sequential device (`Proofs/Exclusive*.lean`) |
| C102 | same | what each step of each handler changes, and what steps change together |
| C103 | Model/Live: each goroutine's steps at both locks, each operation's memory accesses | invariant over events: per channel, what the goroutine holding its lock is doing; ghost logs of reports dealt with, calls and messages |
| C104 | same | well-founded order on (steps left of goroutines, packets left, programs of operations); a stuck state has no holder of a lock |
| C105 | same | C94 and C95 carried over the account of C103 |
| C106 | same | the invariant gives the holder of the lock; one-step symbolic execution |
| C107 | Model/Mac: the driver's list of reports, its notifications, the run loop, and Model/Live inside | a history of the driver is a history of the process in which reports come in one by one (`Mac.inner`), then C103 and C104 |
| C108 | same | only the last report given can be unfinished, so at most one operation is at work (`Mac.Lone`); then C93 |
| C109 | `Model/Overlap.lean`, histories with restarts | every goroutine holds a ticket (nothing, an id drawn, a place in the heap, an answered id); tickets are pairwise apart (`Proofs/OverlapIds*.lean`), a saved state holds distinct ids |
| C110 | `Model/Overlap.lean`, histories with restarts | a result made with a random value has a step of its own goroutine at which the value was drawn (`Proofs/OverlapDraws.lean`, `Owing`); what is saved was encrypted one step before by the same goroutine (`Proofs/OverlapSaves.lean`, `Saver`); draws of different steps have different numbers |
| C111 | `Model/Live.lean`, `Model/Mac.lean`; `Spec/Races.lean` says what a race for the table is | a step that changes the table is made with the lock of the broadcast channel (`changes_inside`), which one goroutine has (`Reports.Inv`); on macOS only the last goroutine is not done |
| C112 | `Model/Server.lean`: `Model/Stack`'s connection around `Model/Live` | the invariant of the connection (C83, C84) with "all the HID server has written" as a parameter, carried along together with the history of steps inside the process (`Inner`), to which C103-C105 apply |
| C113 | `Model/Usb`, `Model/Mac` (report descriptor) | readers of descriptors in `Spec/Enumerate.lean`, written from USB 2.0 chapter 9 and HID 1.11 chapter 6, applied to the answers by computation; UTF-16 round trip by induction over the text; endpoints by cases over all numbers |
| C114 | `Model/Ctap` | entries of the decoded answer (`Spec/Info.lean`); `creation_spec`, C45, and the case lemmas of GetAssertion and ClientPIN |
| C115 | all of the sequential device, in pairs | a relation between two worlds that all handlers preserve (`Proofs/Twice.lean`, `Proofs/PinTwin.lean`), induction over the history |
| C116 | all of the sequential device, in pairs | `Proofs/VaultTwin.lean`: worlds with the same credentials of A, in order; the first match and what incrementing its counter does are determined by these; witness from two histories differing in the last step |
| C117 | the sequential device | token and key agreement key are left alone by all operations but a restart (`perform_session`); C76, C45; witness on the toy device |
| C118 | `Model/Processes` (writes of the file by other processes), the sequential device | `Proofs/StoreBlind.lean`: every operation leaves the saved data alone or replaces all of it, and does the same whatever it is |
| C119 | the sequential device; `Spec/RelyingParty` (a relying party with its records and checks) | `Proofs/RelyingParty.lean`: every record's key is that of the credential with its id and its counter not above that credential's, through every operation and restart; `Props/RelyingParty.lean`; refuted across restarts with a witness |
| C120 | the sequential device; `Spec/U2fParty` (a U2F relying party with its keys and checks) | `Proofs/U2fParty.lean`: the party's keys are those of handles the device made, its counters below the device's, in memory and (when something was saved since the last authentication) in what is saved; `Props/U2fParty.lean`; refuted for restarts without saving with a witness |
| C121 | `Model/MacMemory` (the C++ code on a heap with an arbitrary allocator); `Spec/MacMemory` (the driver with a plain queue) | `Proofs/MacMemory.lean`, `Proofs/MacDriver.lean`: what is allocated is, up to order, the driver's object, its list, a chain of nodes, their frames, references, and what is lost (`Holds`); each call keeps this; `Props/MacMemory.lean` |
| C122 | certificates have contents (`CertTemplate`, `CertInfo`); `Spec/Attestation` (WebAuthn 8.2.1, RFC 5280 paths of length one) | `Proofs/Attestation.lean`: a registration that succeeds made its certificate, from the device's authority, which is that of the configuration (`Keeps`); `Props/Attestation.lean`; serial numbers refuted |
| C123 | `Model/Launch` (the demo, with a new authority for each start) | `Proofs/Launch.lean`: with something saved the arguments of a start do not matter, so the arguments of one start are kept; `Props/Launch.lean`; refuted before the first save with a witness |
| C124 | `Model/Device` (histories with restarts and crashes); `Spec/Accounts` (a list of credentials kept from requests and answers alone) | `Proofs/Accounts.lean`: the vault in memory, and the one a start restores, have the relying parties and ids of the list in the same order, by induction over the history; `Props/Accounts.lean`; refuted parts with a witness |
| C125 | `Model/Processes` (histories in which others write into the file); `Spec/Tamper` (what others can make without the keys) | `Proofs/Tamper.lean`: all saves of a history have draws of their own, so the boxes of a file that opens are those of one save; by induction the file decrypts like one of the saves or not at all, and all saves are of healthy devices with announced credentials; `Props/Tamper.lean`; refuted parts with a witness |
| C126 | `Model/Logged` (the handlers of ctap.go, u2f.go and fido_client.go with their log statements); `Spec/LogSecrets` (what may be shown) | `Proofs/Logged.lean`: each handler with log statements does what the one without does; `Proofs/LoggedLines.lean`: the lines are a function of message and answer, handler by handler, so two devices that answer the same log the same; `Proofs/LoggedShown.lean`, `Props/Logged.lean`: what is shown in the cases left out; refuted parts with witnesses from the start of a device |
| C127 | `Model/Reports`, `Model/Log`; `Spec/Kept` (what counts as kept) | `Proofs/Kept.lean`: invariant of all executions of the report goroutines (length collected against sequence number, channels against reports dealt with); for the log from the account of where each line is (`Props/Log.lean`); refuted parts by induction on the number of reports and lines |
| C128 | `Model/Overlap`; `Spec/Harmless` (which requests, which hosts) | rely–guarantee once more (`Proofs/OverlapLives*.lean`): each handler, from any memory the others may leave, never reaches a panic; attempts at the PIN not yet counted are a budget passed from the history to the goroutines; a schedule with eight attempts shows that the bound is sharp (`Proofs/OverlapDrained.lean`) |
| C129 | `Model/Live`, `Model/Reports`; `Spec/Readable` (which reports), `Spec/Harmless` | invariant: every channel's transaction has a known command and room for the nonce, or has ended with an error or a CANCEL (`Proofs/Readable.lean`); the authenticator's part of a history of the device is one of C128's (`Proofs/LiveReadable.lean`); C103 and C104 then have no panic among their hypotheses |
| C130 | `Model/Server`, `Model/Mac`; `Spec/Readable`, `Spec/Harmless` | C129 through the simulations of C112 and C107 (what happens inside the process is a history of `Model/Live`); coming to rest by well-founded recursion on the device's internal steps and what is yet to be sent |
| C131 | `Model/Server`, `Model/Mac`, `Model/Device`; `Spec/Conversation`, `Spec/RelyingParty`, `Spec/U2fParty` | the reports of a lone host are dealt with one by one, so the schedule is `OneAtATime` and C93 makes it a sequential history; C108/C112 read the answers off the reports; the relying parties are those of C119 and C120 on the whole history. The cases are kernel-evaluated runs in `Proofs/ToyQuick`, a computable copy of the toy environment proved equal to it |
| C132 | as C131; `Spec/Conversation` (`HasRegistered`) | the answers read by the host are those of the sequential history (C131), to which C119 and C120 (`registered_can_login`) apply; the last answer is split off |
| C133 | `Model/Listener` (Start's loop over connections, `runServer`, `exec_*.go`); `Spec/Attach` (the attach command) | what `handle` writes before an import, by induction on its iterations; fates by induction on the connections; invariant over the demo's events |
| C134 | `Spec/PinHistory` (PIN, support and tries as read off the events) over `Model/Ctap`, `Model/Client` and restarts | refinement: each operation keeps `PinIs` and `TriesAre`; then the protocol's outcomes in the state they determine |
| C135 | as C131, C134; `Spec/HostPin` (what the platform makes of the answers) | what a lone host reads are the sequential answers (C131), so the key and the token it read are those of the device, which no request changes; then C134, C76 and C119 in that state. Cases in `Proofs/ToyPin`, which answers by table and is the toy environment |
| C136 | as C131; `Spec/Hosts` | the schedule is serial whichever channel a report is on, so C93 makes the requests of all channels one sequential history; C103's account gives for each channel its part of it. On macOS the inner schedule is the same at whatever point we look (`inner_splits`), so that programs may get their channels at different times |
| C137 | as C136 | every request of the order is answered by the sequential device after those before it (C136), so C119, C120, C134 and C76 apply at every position; what was told on one channel is part of what was told on all |
| C138 | Model/Server (command loop, timers) | invariant over `exec`: who waits has a timer, and 48·held ≤ 4294967295·received (reading takes 48 bytes before a buffer is made); firing all timers empties both; by induction over the commands the bound is reached |
| C139 | Model/Mac, Model/Server (several hosts) | each position of C136's order is a step of the sequential device after what was done before (`order_told`); there C56, C90, C50, C67, C92 and C44 apply |
| C140 | Model/Vault `importSources`, Model/Client `importData`, `exportState` | induction over the saved credentials: the loop reads up to the first unreadable key; the device read is `Healthy`, so that saving and starting again gives it back, and logging in succeeds (C77, C47); witness with an unreadable first key |
| C141 | Model/HidTransaction, Model/HidServer `handleMessage` | the open transaction after a start and n continuations is known (C01); one step with any other report; `Refused` in Props/HidErrors says what is observable |

## 6. Refuted properties

Where the code violates a property, a theorem `Cnn_..._refuted` gives a concrete witness, and the
other theorems of the property say exactly what holds instead. `MANIFEST.json` has status `partial`
when the property's main sentence is false (the statement is kept), `proved` when the statement in
`properties.jsonl` already carries the exception and both sides are proved.

## 7. Mutation tests

Model definitions were edited in a scratch copy in the way of realistic bugs and everything
depending on them rebuilt; `seeded/LOG.jsonl` has one line per edit. `theorems_failed` lists the
theorems and lemmas whose own proof no longer passes; `property_theorems_no_longer_proved` the
property theorems which fail themselves or rest on a failing lemma. Where the first failing lemma hid
later modules, it was replaced by an assumption in the scratch copy and the build continued.
`theorems_tightened` names the theorems added or strengthened because an edit got past the claim it
breaks.
