#!/usr/bin/env python3
"""Writes /verif/properties.jsonl. One tuple per property:
(id, title, statement, quantifier, why_tests_cant, anchors)"""
import json, os
P = []
def p(id, title, statement, quantifier, why, anchors):
    P.append(dict(id=id, title=title, statement=statement, quantifier=quantifier,
                  why_tests_cant=why, anchors=anchors))

# ---------------------------------------------------------------- A. CTAPHID
p("C01", "CTAPHID requests are reassembled exactly",
  "When a host splits a command and payload into one initialization report and in-sequence continuation reports (with any padding after the payload) and sends them in order on an idle, open channel, the device acts on exactly that command with exactly that payload, once, when the last report arrives, and sends nothing on the channel before.",
  "every channel id, command, payload length 0..7609 and content, every padding, every report size that can carry a header",
  "payload contents and lengths are unbounded in combination; boundary behaviour (57, 57+59k, 7609) and padding need all sizes at once",
  ["ctap_hid/transaction.go:newCTAPHIDTransaction", "ctap_hid/transaction.go:addMessage", "ctap_hid/channel.go:handleMessage"])
p("C02", "CTAPHID responses are framed so that any host reassembles them",
  "Every response of 1 to 7609 bytes is sent as 64-byte reports that a host following the CTAPHID specification reassembles to exactly the same channel, command and payload.",
  "every channel id, command byte with the top bit set, and payload of 1..7609 bytes",
  "all lengths and contents; off-by-one at packet boundaries only shows at particular sizes",
  ["ctap_hid/ctap_hid.go:createResponsePackets", "util/util.go:Pad"])
p("C03", "No corrupted, spliced or partial request is ever acted on",
  "For every history of arbitrary reports arriving on a channel, whenever the device acts on a command and payload, a contiguous run of the most recent reports of that channel is a valid in-sequence fragmentation of exactly that command and payload.",
  "every finite history of arbitrary byte-string reports on a channel",
  "adversarial histories: lost, duplicated, reordered, truncated reports in any combination",
  ["ctap_hid/transaction.go:addMessage", "ctap_hid/channel.go:handleMessage"])
p("C04", "Any scheduling of one request's reports delivers it intact at most once",
  "The USB layer handles each OUT report in its own goroutine. For every order in which the reports of one request are processed, the request is acted on at most once and only with its exact payload. (The stronger claim that it is always acted on is false: a swapped pair of reports is answered with an error.)",
  "every permutation of the reports of every request of up to 7609 bytes",
  "goroutine scheduling orders: k! permutations of up to 129 reports",
  ["usb/usb_device.go:HandleMessage", "ctap_hid/channel.go:handleMessage"])
p("C05", "Channels do not interfere",
  "The commands and payloads acted on for an open channel depend only on the reports sent on that channel, in their order; reports interleaved on other channels change nothing.",
  "every interleaving of every history of reports over any number of channels",
  "all interleavings of unbounded histories",
  ["ctap_hid/ctap_hid.go:HandleMessage", "ctap_hid/channel.go:handleMessage"])
p("C06", "Reports on an unknown channel are refused without effect",
  "A report for a channel that was never allocated is answered with exactly one CTAPHID_ERROR report carrying ERR_INVALID_CHANNEL on that channel and changes no device state.",
  "every server state, every unallocated channel id, every report content",
  "all 2^32 channel ids and all states",
  ["ctap_hid/ctap_hid.go:HandleMessage", "ctap_hid/ctap_hid.go:sendError", "ctap_hid/data.go:ctapHidError"])
p("C07", "Allocated channel ids are fresh",
  "Over any history of reports with fewer than 2^32-1 successful CTAPHID_INITs, the channel ids handed out are pairwise distinct, never 0 and never the broadcast id. (Without the bound this fails: the id counter wraps onto the broadcast id.)",
  "every history of arbitrary reports to the device",
  "unbounded histories; the wrap needs 2^32 allocations",
  ["ctap_hid/ctap_hid.go:newChannel", "ctap_hid/channel.go:handleBroadcastMessage"])
p("C08", "CTAPHID_INIT answers the right client with a usable channel",
  "An INIT with an 8-byte nonce on the idle broadcast channel is answered by a single 64-byte report on the broadcast channel that carries that nonce, a new channel id, protocol version 2 and the CBOR capability; the new channel is open and idle afterwards.",
  "every nonce, every server state with an idle broadcast channel, any padding of the report",
  "all nonces and all states",
  ["ctap_hid/channel.go:handleBroadcastMessage", "ctap_hid/ctap_hid.go:newChannel"])
p("C09", "PING echoes its payload",
  "A CTAPHID_PING of 1 to 7609 bytes on any open channel is answered on the same channel with reports that a conforming host reassembles to the same payload. (A zero-length PING is never answered: the full claim for 0..7609 bytes is false.)",
  "every payload of 1..7609 bytes, every open channel",
  "all sizes and contents end to end through both framing directions",
  ["ctap_hid/channel.go:handleDataMessage", "ctap_hid/channel.go:handleBroadcastMessage", "ctap_hid/ctap_hid.go:createResponsePackets"])
p("C10", "CANCEL aborts an incomplete request silently",
  "A CTAPHID_CANCEL report on an open channel produces no report and leaves the channel idle, whatever was received before on it.",
  "every reachable channel state",
  "every partial history",
  ["ctap_hid/transaction.go:cancel", "ctap_hid/channel.go:handleMessage"])
p("C11", "A channel is never wedged",
  "After any history of reports on a channel that did not crash the device, if the last report produced an error or completed a request then a complete well-formed request sent next is acted on normally; at any other time sending CANCEL first has the same effect.",
  "every finite history of reports",
  "unbounded histories",
  ["ctap_hid/channel.go:handleMessage", "ctap_hid/transaction.go:addMessage"])
p("C12", "Oversized requests are never acted on",
  "A request announcing more than 7609 bytes sent in 64-byte reports is never acted on; its 129th continuation report is answered with ERR_INVALID_SEQ.",
  "every announced length 7610..65535, all report contents",
  "all lengths and contents",
  ["ctap_hid/transaction.go:addMessage"])
p("C13", "Answers go back on the channel and with the command of the request",
  "Every report sent while a request of channel c is handled carries channel id c, and is either a CTAPHID_ERROR, a keepalive, or a response with the command of the request.",
  "every report, every server state, every upper-layer behaviour",
  "all states and all upper layer results",
  ["ctap_hid/channel.go:handleDataMessage", "ctap_hid/ctap_hid.go:sendResponse"])
p("C14", "Exactly which reports crash the CTAPHID layer",
  "Handling a report panics (which kills the process, since no goroutine recovers) exactly when the report is too short to hold the header it needs, or completes a request whose command is not one of MSG/CBOR/PING (or INIT/PING on the broadcast channel), or is an INIT with fewer than 8 bytes available, or an upper layer panics. The wished-for property that no host report crashes the device is false.",
  "every server state and every report",
  "all inputs and states",
  ["ctap_hid/channel.go:handleBroadcastMessage", "ctap_hid/channel.go:handleDataMessage", "util/util.go:ReadLE"])
# ---------------------------------------------------------------- B. request buffer
p("C15", "Device-to-host packets are delivered in order, none lost or duplicated",
  "For every history of Request, CancelRequest and Respond calls, the packets handed to request callbacks are, in order, exactly an initial part of the packets passed to Respond, and the rest are still queued in order.",
  "every finite history of calls, every choice Go's map iteration makes",
  "map iteration order is random and histories are unbounded",
  ["util/request_buffer.go:Request", "util/request_buffer.go:Respond", "util/request_buffer.go:CancelRequest"])
p("C16", "An interrupt-IN transfer completes exactly once",
  "When request ids are not reused while a timer may still fire, each IN transfer's completion callback runs at most once, and once its one-second timer has fired it has run exactly once unless the transfer was unlinked. (With id reuse a request can be left without any completion.)",
  "every interleaving of requests, responses, unlinks and timer firings with distinct ids",
  "races between timers, responses and unlinks",
  ["usb/usb_device.go:HandleMessage", "util/request_buffer.go", "util/util.go:SetTimeout"])
p("C17", "Unlink reports truthfully and is final",
  "CancelRequest returns true exactly when the request was still waiting, and after it returned true the request's callback is never run by a later Respond unless the id is submitted again.",
  "every history of calls",
  "unbounded histories and nondeterministic map choice",
  ["util/request_buffer.go:CancelRequest", "usbip/usbip_server.go:handleCommandUnlink"])
p("C18", "Delivery order survives the unlocked callback",
  "Respond runs the callback after releasing the lock. For every interleaving of its two halves with Request and CancelRequest calls, as long as Respond calls themselves do not overlap (as the HID server's response lock guarantees), callbacks receive packets in Respond order. With two overlapping Respond calls this fails.",
  "every interleaving of small steps",
  "thread interleavings inside a critical window",
  ["util/request_buffer.go:Respond", "ctap_hid/ctap_hid.go:sendResponsePackets"])
p("C19", "Packets of one response and bytes of one reply are never interleaved",
  "For every number of concurrent senders and every schedule, what reaches the response handler (or the USB/IP socket) is a concatenation of whole responses, plus at most a prefix of the one currently being sent.",
  "every number of threads, every schedule, every response",
  "unbounded schedules",
  ["ctap_hid/ctap_hid.go:sendResponsePackets", "usbip/usbip_server.go:writeResponse"])
# ---------------------------------------------------------------- C. USB/IP
p("C20", "RET_SUBMIT is well framed",
  "For every submitted URB that completes, the reply is 48 header bytes echoing the sequence number, followed, for IN transfers only, by exactly ActualLength bytes: the device's data cut or zero-padded to the requested length. OUT replies carry no data.",
  "every header, transfer length, direction and device response",
  "all lengths and responses",
  ["usbip/usbip_server.go:handleCommandSubmit", "usbip/usbip.go:replyHeader"])
p("C21", "The USB/IP command stream is decoded exactly",
  "For every sequence of SUBMIT and UNLINK commands a client writes, the device layer receives exactly that sequence with the same fields and data, when each read of the socket returns the bytes asked for. (If TCP delivers a transfer buffer in pieces the remaining stream is misparsed: the unconditional claim is false.)",
  "every finite sequence of commands and every segmentation of the byte stream",
  "TCP segmentation is not controllable from a unit test and sequences are unbounded",
  ["usbip/usbip_server.go:handleCommands", "usbip/usbip_server.go:handleCommandSubmit", "util/util.go:Read"])
p("C22", "OP_REQ_DEVLIST lists the exported devices",
  "A device-list request is answered with the list of exported devices. (False: the reply structure holds a slice, which encoding/binary rejects, the error is dropped and nothing is sent, for every device list.)",
  "every list of exported devices",
  "the failure is a dropped error inside a generic helper; for all device lists",
  ["usbip/usbip_server.go:handle", "usbip/usbip.go:newOpRepDevlist", "util/util.go:ToBE"])
p("C23", "OP_REQ_IMPORT answers truthfully",
  "An import request naming a bus id is answered with status 0 and the summary of the first exported device with exactly that bus id if there is one, and with status 1 and no device otherwise; in the second case the connection keeps serving control requests.",
  "every device list and every 32-byte NUL-terminated bus id field",
  "all device lists and bus ids",
  ["usbip/usbip_server.go:handle", "usbip/usbip_server.go:getDevice", "util/util.go:CStringToString"])
p("C24", "The server serves the next client after a disconnect",
  "After a client that imported the device disconnects, the server accepts another connection. (False: the command loop catches the read failure and retries forever.)",
  "every continuation of the connection after the client disconnects",
  "non-termination cannot be observed by a test",
  ["usbip/usbip_server.go:handleCommands", "usbip/usbip_server.go:Start", "util/util.go:Try"])
p("C25", "Only loopback clients are served",
  "A connection is served only if its remote IPv4 address is in 127.0.0.0/24, and every client at 127.0.0.1 is served.",
  "every IPv4 address and port",
  "2^48 address/port pairs",
  ["usbip/usbip_server.go:Start"])
p("C26", "A command that fails does not affect the following commands",
  "If handling one command panics in the device layer, no reply is sent for it and the following commands of the stream are handled as if it had not been there.",
  "every command sequence and every device behaviour",
  "all positions of failures in unbounded streams",
  ["usbip/usbip_server.go:handleCommands", "util/util.go:Try"])
# ---------------------------------------------------------------- D. USB device
p("C27", "USB descriptors are self-consistent",
  "Every descriptor the device returns carries its own length, the configuration descriptor's total length is the length of the whole answer, it lists exactly as many interfaces and endpoints as announced, and the announced HID report length is the length of the report descriptor actually returned.",
  "every descriptor type and index",
  "all 65536 wValue values including the panicking ones",
  ["usb/usb_device.go:getDescriptor", "usb/usb_device.go:handleInterfaceRequest"])
p("C28", "Setup packets are decoded per field and setters do not interfere",
  "Setting direction, class or recipient of a setup packet makes the matching getter return that value and leaves the other two unchanged. (The class field is read from bits 5..4 instead of USB's bits 6..5, so it disagrees with the USB specification.)",
  "every bmRequestType byte and every field value",
  "the whole byte domain and the USB specification as oracle",
  ["usb/usb.go:direction", "usb/usb.go:requestClass", "usb/usb.go:recipient"])
# ---------------------------------------------------------------- E. CBOR / COSE
p("C29", "COSE private keys survive marshalling",
  "UnmarshalCOSEPrivateKey(MarshalCOSEPrivateKey(k)) is a key equal to k, for every P-256 ECDSA, Ed25519 and RSA key, including numbers with leading zero bytes.",
  "every key of each kind",
  "rare key values (leading zeros) and all sizes",
  ["cose/cose.go:MarshalCOSEPrivateKey", "cose/cose.go:UnmarshalCOSEPrivateKey"])
p("C30", "COSE public keys survive marshalling",
  "UnmarshalCOSEPublicKey(MarshalCOSEPublicKey(k)) is k for every ECDSA and Ed25519 key. (For RSA it is false for every key: the exponent is dropped on encoding and decoding always panics.)",
  "every public key of each kind",
  "all keys; the RSA failure needs the dropped-error path",
  ["cose/cose.go:MarshalCOSEPublicKey", "cose/cose.go:UnmarshalCOSEPublicKey", "util/util.go:ToBE", "util/util.go:FromBE"])
p("C31", "Published P-256 coordinates have 32 bytes",
  "The COSE key in an attestation carries 32-byte x and y coordinates as RFC 9053 requires. (False exactly for the keys with a coordinate below 2^248.) The COSE form of the other keys has the key type, algorithm and curve of RFC 9053 and RFC 8230 and the key itself. (But of an RSA key the exponent is missing.)",
  "every P-256, Ed25519 and RSA public key",
  "fails for about 1 key in 128, so tests pass almost always",
  ["cose/cose.go:encodeECDSAPublicKey", "ctap/ctap.go:makeAttestedCredentialData"])
p("C32", "Key equality is an equivalence",
  "SupportedCOSEPrivateKey.Equal is reflexive, symmetric, transitive and true only for equal key material; SupportedCOSEPublicKey.Equal likewise. (The public version is not reflexive: it answers false for every Ed25519 key.)",
  "every triple of keys",
  "all keys and combinations of kinds",
  ["cose/cose.go:Equal"])
p("C33", "Sign, Public, Marshal and attestation pick the same key",
  "For every private key structure, including ones with several kinds set, the signature made with it verifies under the public key returned by Public(), under the key in the attestation certificate, and under the key obtained from the marshalled form; certificates made with it as the authority verify under Public() too; Verify accepts nothing that the algorithm of a key in the structure rejects; a structure with no key panics in all of them.",
  "every combination of key kinds",
  "all combinations of optional fields",
  ["cose/cose.go:Sign", "cose/cose.go:Public", "identities/attestation.go:extractPublicKey", "identities/attestation.go:extractPrivateKey"])
p("C34", "CBOR answers are decodable and canonical",
  "Every CBOR answer of the device is a single well-formed CBOR item in CTAP2 canonical form (shortest heads, sorted unique keys) that decodes to the answer's content.",
  "every answer structure with any field contents below 2^64 bytes",
  "all lengths (head sizes change at 24, 256, 65536, 2^32) and contents",
  ["util/util.go:MarshalCBOR", "ctap/ctap.go:makeCredentialResponse", "ctap/ctap.go:getAssertionResponse", "ctap/ctap.go:getInfoResponse", "ctap/ctap.go:clientPINResponse"])
# ---------------------------------------------------------------- F. vault
p("C35", "Deleting an identity removes exactly that identity",
  "DeleteIdentity(id) returns true exactly when a credential with that id exists, then removes exactly one such credential and keeps all others; otherwise nothing changes.",
  "every vault and id",
  "all vault sizes and positions (first, last, only, duplicate)",
  ["identities/identity_vault.go:DeleteIdentity", "fido_client/fido_client.go:DeleteIdentity"])
p("C36", "Credential lookup returns exactly the matching credentials in order",
  "GetMatchingCredentialSources returns, in vault order, exactly the credentials whose relying party id equals the requested one and, when an allow list is given, whose id is in it; each once.",
  "every vault, relying party id and allow list (absent, empty or with duplicates)",
  "all vaults and lists",
  ["identities/identity_vault.go:GetMatchingCredentialSources"])
p("C37", "Importing an exported vault restores keys, ids, types and counters",
  "Export followed by Import into an empty vault yields the same credentials in the same order with the same id, type, private key and signature counter.",
  "every vault whose keys are supported",
  "all vaults",
  ["identities/identity_vault.go:Export", "identities/identity_vault.go:Import"])
p("C38", "Importing an exported vault restores relying parties and users",
  "After Import every credential has the relying party and user it was exported with. (False as soon as two credentials differ in them: all imported credentials share the loop variable's relying party and user, i.e. those of the last credential.)",
  "every vault",
  "needs two or more credentials and the language version's loop-variable semantics",
  ["identities/identity_vault.go:Import", "go.mod"])
# ---------------------------------------------------------------- G. saved state
p("C39", "The saved blob opens with its passphrase to the saved state",
  "DecryptFIDOState(EncryptFIDOState(s, p), p) succeeds and returns s (with an empty PIN hash read back as absent).",
  "every state, passphrase and random draw",
  "all states and salts",
  ["identities/saved_state.go:EncryptFIDOState", "identities/saved_state.go:DecryptFIDOState"])
p("C40", "After every completed operation the saved data reflects memory",
  "After any history of requests, API calls and restarts, what would be loaded by a restart has the same credentials (ids, keys, counters), PIN hash, PIN switch and device keys as the running process, once an operation that changes them has completed.",
  "every history of CTAP and U2F messages, API calls and restarts",
  "unbounded histories",
  ["fido_client/fido_client.go:saveData", "fido_client/fido_client.go:exportData", "fido_client/fido_client.go:importData"])
p("C41", "A crash never leaves saved data other than before or after the operation",
  "If handling a message panics at any point, the saved data is what it was before the message or what a completed save of that operation wrote.",
  "every message, state and crash point inside the handlers",
  "crash points",
  ["fido_client/fido_client.go:saveData", "fido_client/fido_client.go:NewCredentialSource"])
p("C42", "The demo's vault file survives a crash during save",
  "After a crash at any point of SaveData the file holds the old or the new vault. (False: the file is truncated first, and the next start panics.)",
  "every crash point, old and new content",
  "crash points between truncate and write",
  ["cmd/demo/server.go:SaveData", "cmd/demo/server.go:RetrieveData"])
# ---------------------------------------------------------------- H. CTAP
p("C43", "A credential is created only with the user's approval",
  "A MakeCredential request returns success only if the approver was asked for that relying party during the request and agreed; if the approver refuses, the answer is OPERATION_DENIED and no credential is created or saved.",
  "every request, device state and random draw",
  "all requests and states",
  ["ctap/ctap.go:handleMakeCredential", "fido_client/fido_client.go:ApproveAccountCreation"])
p("C44", "With a PIN set, creation requires PIN authentication",
  "When PIN support is on and a PIN is set, MakeCredential succeeds only with a protocol-1 pinAuth equal to the first 16 bytes of HMAC-SHA-256(pin token, clientDataHash).",
  "every request and state",
  "all requests",
  ["ctap/ctap.go:handleMakeCredential", "ctap/ctap.go:derivePINAuth"])
p("C45", "The authenticator data says what happened",
  "In every successful MakeCredential or GetAssertion answer the relying party hash is SHA-256 of the requested id, the user-present flag is set iff the approver agreed during this request, the user-verified flag iff a valid pinAuth was given with PIN support on, the attested-data flag iff a credential was created, and the counter is the credential's counter.",
  "every successful request and state",
  "all requests and states",
  ["ctap/ctap.go:makeAuthData", "ctap/ctap.go:handleMakeCredential", "ctap/ctap.go:handleGetAssertion"])
p("C46", "A created credential is stored, saved and attested",
  "A successful MakeCredential adds exactly one credential, with the requested relying party and user, to the end of the vault, saves it, and returns authenticator data from which a relying party parses that credential's id and public key, with an attestation signature over authData||clientDataHash that verifies under it.",
  "every successful request and state",
  "all requests and states",
  ["ctap/ctap.go:handleMakeCredential", "ctap/ctap.go:makeAttestedCredentialData", "fido_client/fido_client.go:NewCredentialSource"])
p("C47", "An assertion uses a credential of the requested relying party",
  "A successful GetAssertion names a credential in the vault whose relying party id is the requested one and, if an allow list was sent, whose id is in it; its signature over authData||clientDataHash verifies under that credential's public key.",
  "every request and state",
  "all requests and states",
  ["ctap/ctap.go:handleGetAssertion", "fido_client/fido_client.go:GetAssertionSource"])
p("C48", "An assertion needs the user unless up=false",
  "A GetAssertion without the option up=false succeeds only if the approver was asked about that credential and agreed; if refused the answer is OPERATION_DENIED and nothing is signed.",
  "every request and state",
  "all requests and states",
  ["ctap/ctap.go:handleGetAssertion"])
p("C49", "No matching credential means NO_CREDENTIALS and no effect",
  "GetAssertion answers NO_CREDENTIALS exactly when PIN authentication did not fail and no stored credential matches, and then changes nothing.",
  "every request and state",
  "all requests and states",
  ["ctap/ctap.go:handleGetAssertion", "fido_client/fido_client.go:GetAssertionSource"])
p("C50", "Signature counters strictly increase",
  "Over any history in one process and across restarts, the counters in successive successful assertions of one credential strictly increase, for fewer than 2^32 uses.",
  "every history of messages, API calls and restarts",
  "unbounded histories",
  ["fido_client/fido_client.go:GetAssertionSource", "ctap/ctap.go:makeAuthData"])
p("C51", "A refused login leaves no trace",
  "If the user refuses an assertion the device state is unchanged. (False: the signature counter is incremented and saved before the user is asked.)",
  "every state and request",
  "ordering of effects inside the handler",
  ["fido_client/fido_client.go:GetAssertionSource", "ctap/ctap.go:handleGetAssertion"])
p("C52", "The exclude list is honoured",
  "MakeCredential is refused when a credential in the exclude list exists for the relying party. (False: the list is never read.)",
  "every request and state",
  "needs the specification as oracle for all lists",
  ["ctap/ctap.go:handleMakeCredential", "fido_client/fido_client.go:NewCredentialSource"])
p("C53", "setPIN works only while no PIN is set",
  "A setPIN request changes the PIN only if none is set, its pinAuth verifies, and the decrypted PIN has at least 4 bytes; in all other cases PIN and retry counter are unchanged.",
  "every request and state",
  "all requests",
  ["ctap/ctap.go:handleSetPIN", "ctap/ctap.go:decryptPIN"])
p("C54", "The PIN is replaced only by someone who knows it",
  "A changePIN request changes a set PIN only if it carries the hash of the current PIN encrypted under the shared secret and a verifying pinAuth.",
  "every request and state",
  "all requests",
  ["ctap/ctap.go:handleChangePIN"])
p("C55", "The PIN token is released only against the PIN",
  "getPINToken returns the token only if the decrypted PIN hash equals the stored one. When no PIN is set no token is released. (The second half is false: an empty pinHashEnc matches the absent PIN.)",
  "every request and state",
  "all requests; the empty-string corner",
  ["ctap/ctap.go:handleGetPINToken"])
p("C56", "At most eight wrong PINs in a row",
  "In any history of messages within one process, at most 8 PIN_INVALID answers are given between two successful PIN operations; once 8 have been given no further PIN attempt is evaluated.",
  "every finite history of CTAP messages",
  "unbounded histories",
  ["ctap/ctap.go:handleChangePIN", "ctap/ctap.go:handleGetPINToken", "fido_client/fido_client.go:PINRetries"])
p("C57", "A locked-out PIN is reported as PIN_BLOCKED",
  "After eight wrong PINs further attempts are answered PIN_BLOCKED. (False: reading the retry counter panics at 0, so the device crashes.)",
  "every state with no retries left",
  "the crash is in an assertion in another package",
  ["fido_client/fido_client.go:PINRetries", "ctap/ctap.go:handleGetPINToken"])
p("C58", "PIN lock-out survives a restart",
  "The retry counter after a restart is the one before it. (False: it is reset to 8 at every start. So whoever can start the program anew finds the PIN by trying: however many guesses they make, starting the program before each, every guess is evaluated, and the right one gets a token.)",
  "every state",
  "crosses process lifetimes",
  ["fido_client/fido_client.go:NewDefaultClient", "fido_client/fido_client.go:exportData"])
p("C59", "A conforming platform can set a PIN, get the token and prove user verification",
  "A platform following CTAP PIN protocol 1 that sends setPIN with a PIN of 4..63 non-zero bytes on a fresh device, then getPINToken with it, obtains exactly the device's token, and a MakeCredential authenticated with it carries the user-verified flag, provided the shared ECDH x-coordinate has no leading zero byte (without the proviso both sides hash different strings).",
  "every PIN, key pair and shared secret",
  "all PINs and keys; about 1 in 256 key pairs fails",
  ["ctap/ctap.go:handleSetPIN", "ctap/ctap.go:handleGetPINToken", "crypto/crypto.go:ECDH"])
p("C60", "GetInfo tells the truth about PIN state",
  "GetInfo reports clientPin=true iff PIN support is on and a PIN is set, clientPin=false iff it is on and none is set, omits it otherwise, and changes nothing.",
  "every state",
  "all states",
  ["ctap/ctap.go:handleGetInfo"])
p("C61", "Each command changes only what it may change",
  "MakeCredential only appends a credential, GetAssertion only increments one counter, ClientPIN only changes PIN hash and retry counter, GetInfo nothing; none changes device keys, PIN token or the PIN switch.",
  "every message and state, including failing and panicking ones",
  "all messages",
  ["ctap/ctap.go:HandleMessage"])
# ---------------------------------------------------------------- I. U2F
p("C62", "U2F registration yields a usable, verifiable key",
  "A successful registration answer parses, per the U2F raw message format, into a 65-byte public key, a key handle of at most 255 bytes, a certificate and a signature over 0||app||challenge||handle||pubkey that verifies under that key; it happens only if the approver agreed; otherwise the answer is 0x6985 and carries no handle.",
  "every challenge, application, state and random draw",
  "all inputs",
  ["u2f/u2f.go:handleU2FRegister"])
p("C63", "A registered key handle authenticates for its own application only",
  "Authenticating with the handle returned by a registration signs app||1||counter||challenge verifiably under the registered key for the same application parameter, and answers WRONG_DATA for every other application, also after a restart.",
  "every registration, application, challenge and later state with the same device key",
  "all pairs of applications and histories",
  ["u2f/u2f.go:handleU2FAuthenticate", "u2f/u2f.go:openKeyHandle"])
p("C64", "U2F signs only for handles this device sealed",
  "A successful authenticate answer implies the given handle opens under the device's sealing key to a private key bound to the given application.",
  "every request",
  "adversarial handles",
  ["u2f/u2f.go:openKeyHandle", "crypto/crypto.go:Open"])
p("C65", "Foreign key handles are answered WRONG_DATA",
  "A key handle not made by this device is answered 0x6A80. (False for handles that parse as CBOR boxes: opening them panics.)",
  "every handle",
  "adversarial handles",
  ["crypto/crypto.go:Open", "u2f/u2f.go:openKeyHandle"])
p("C66", "U2F user presence is asked for when demanded",
  "Control byte 0x03 signs only if the approver agreed; 0x07 never signs and never asks; the user-presence byte of the answer is 1 only if the approver agreed. (The last part is false for control byte 0x08.)",
  "every request and state",
  "all control bytes",
  ["u2f/u2f.go:handleU2FAuthenticate"])
p("C67", "The U2F counter strictly increases",
  "Successive successful authentications in one process carry strictly increasing counters for fewer than 2^32 uses. (Across restarts this fails: the counter is not saved when it is used.)",
  "every history",
  "unbounded histories and restarts",
  ["fido_client/fido_client.go:NewAuthenticationCounterId", "u2f/u2f.go:handleU2FAuthenticate"])
p("C68", "U2F request framing is decoded exactly",
  "Every extended-length APDU with data of 1..65535 bytes, with or without a response length, is decoded to the same header, data and response length.",
  "every header, data and response length",
  "all sizes",
  ["u2f/u2f.go:decodeU2FMessage"])
# ---------------------------------------------------------------- J. logging, demo
p("C69", "Log levels gate output",
  "For every history of logging calls, SetLogLevel and SetLogOutput, a message reaches the output iff an output was set and some level at most the message's level was ever set (or the message is at Enabled level); each message is written at most once and none is lost; messages of one level keep their order.",
  "every history",
  "unbounded histories with buffering before configuration",
  ["util/log.go"])
p("C70", "demo delete removes the identity the user named",
  "`demo delete --identity P` deletes the only identity whose hex id starts with P. (False: the loop variable's address is kept, so the last identity is deleted.)",
  "every vault and prefix",
  "loop-variable aliasing",
  ["cmd/demo/demo.go:deleteIdentity"])
p("C71", "Demo approval only on an explicit yes, for a question that names the action",
  "The demo approves only when the trimmed, lower-cased answer is y or yes, and the question shown names the action approved. (The second half is false: the two U2F questions are swapped.)",
  "every input line and action",
  "all strings",
  ["cmd/demo/server.go:prompt", "cmd/demo/server.go:ApproveClientAction"])
p("C72", "Keepalives stop and leak nothing",
  "After the stop signal the keepalive loop runs its function at most once more, provided a helper's interval does not elapse between its start and the loop's next wait; its helper goroutines never block, and everything terminates within a bounded number of steps. (That no keepalive follows the final response is false.)",
  "every interleaving of timer, loop and stop",
  "goroutine interleavings",
  ["util/util.go:StartRecurringFunction", "ctap_hid/channel.go:handleDataMessage"])
p("C73", "Concurrent authentications get distinct counters",
  "Two U2F authentications on different channels handled concurrently get different counters. (False: the read and the increment are not atomic and nothing locks the client.)",
  "every interleaving",
  "thread interleavings",
  ["fido_client/fido_client.go:NewAuthenticationCounterId", "ctap_hid/channel.go:handleMessage"])

here = os.path.dirname(os.path.abspath(__file__))
exec(open(os.path.join(here, "more_properties.py")).read()) if os.path.exists(os.path.join(here, "more_properties.py")) else None
with open(os.path.join(here, "..", "properties.jsonl"), "w") as f:
    for q in P: f.write(json.dumps(q) + "\n")
print(len(P))
