{"id": "C01", "title": "CTAPHID requests are reassembled exactly", "statement": "When a host splits a command and payload into one initialization report and in-sequence continuation reports (with any padding after the payload) and sends them in order on an idle, open channel, the device acts on exactly that command with exactly that payload, once, when the last report arrives, and sends nothing on the channel before.", "quantifier": "every channel id, command, payload length 0..7609 and content, every padding, every report size that can carry a header", "why_tests_cant": "payload contents and lengths are unbounded in combination; boundary behaviour (57, 57+59k, 7609) and padding need all sizes at once", "anchors": ["ctap_hid/transaction.go:newCTAPHIDTransaction", "ctap_hid/transaction.go:addMessage", "ctap_hid/channel.go:handleMessage"]}
{"id": "C02", "title": "CTAPHID responses are framed so that any host reassembles them", "statement": "Every response of 1 to 7609 bytes is sent as 64-byte reports that a host following the CTAPHID specification reassembles to exactly the same channel, command and payload.", "quantifier": "every channel id, command byte with the top bit set, and payload of 1..7609 bytes", "why_tests_cant": "all lengths and contents; off-by-one at packet boundaries only shows at particular sizes", "anchors": ["ctap_hid/ctap_hid.go:createResponsePackets", "util/util.go:Pad"]}
{"id": "C03", "title": "No corrupted, spliced or partial request is ever acted on", "statement": "For every history of arbitrary reports arriving on a channel, whenever the device acts on a command and payload, a contiguous run of the most recent reports of that channel is a valid in-sequence fragmentation of exactly that command and payload.", "quantifier": "every finite history of arbitrary byte-string reports on a channel", "why_tests_cant": "adversarial histories: lost, duplicated, reordered, truncated reports in any combination", "anchors": ["ctap_hid/transaction.go:addMessage", "ctap_hid/channel.go:handleMessage"]}
{"id": "C04", "title": "Any scheduling of one request's reports delivers it intact at most once", "statement": "The USB layer handles each OUT report in its own goroutine. For every order in which the reports of one request are processed, the request is acted on at most once and only with its exact payload. (The stronger claim that it is always acted on is false: a swapped pair of reports is answered with an error.)", "quantifier": "every permutation of the reports of every request of up to 7609 bytes", "why_tests_cant": "goroutine scheduling orders: k! permutations of up to 129 reports", "anchors": ["usb/usb_device.go:HandleMessage", "ctap_hid/channel.go:handleMessage"]}
{"id": "C05", "title": "Channels do not interfere", "statement": "The commands and payloads acted on for an open channel depend only on the reports sent on that channel, in their order; reports interleaved on other channels change nothing.", "quantifier": "every interleaving of every history of reports over any number of channels", "why_tests_cant": "all interleavings of unbounded histories", "anchors": ["ctap_hid/ctap_hid.go:HandleMessage", "ctap_hid/channel.go:handleMessage"]}
{"id": "C06", "title": "Reports on an unknown channel are refused without effect", "statement": "A report for a channel that was never allocated is answered with exactly one CTAPHID_ERROR report carrying ERR_INVALID_CHANNEL on that channel and changes no device state.", "quantifier": "every server state, every unallocated channel id, every report content", "why_tests_cant": "all 2^32 channel ids and all states", "anchors": ["ctap_hid/ctap_hid.go:HandleMessage", "ctap_hid/ctap_hid.go:sendError", "ctap_hid/data.go:ctapHidError"]}
{"id": "C07", "title": "Allocated channel ids are fresh", "statement": "Over any history of reports with fewer than 2^32-1 successful CTAPHID_INITs, the channel ids handed out are pairwise distinct, never 0 and never the broadcast id. (Without the bound this fails: the id counter wraps onto the broadcast id.)", "quantifier": "every history of arbitrary reports to the device", "why_tests_cant": "unbounded histories; the wrap needs 2^32 allocations", "anchors": ["ctap_hid/ctap_hid.go:newChannel", "ctap_hid/channel.go:handleBroadcastMessage"]}
{"id": "C08", "title": "CTAPHID_INIT answers the right client with a usable channel", "statement": "An INIT with an 8-byte nonce on the idle broadcast channel is answered by a single 64-byte report on the broadcast channel that carries that nonce, a new channel id, protocol version 2 and the CBOR capability; the new channel is open and idle afterwards.", "quantifier": "every nonce, every server state with an idle broadcast channel, any padding of the report", "why_tests_cant": "all nonces and all states", "anchors": ["ctap_hid/channel.go:handleBroadcastMessage", "ctap_hid/ctap_hid.go:newChannel"]}
{"id": "C09", "title": "PING echoes its payload", "statement": "A CTAPHID_PING of 1 to 7609 bytes on any open channel is answered on the same channel with reports that a conforming host reassembles to the same payload. (A zero-length PING is never answered: the full claim for 0..7609 bytes is false.)", "quantifier": "every payload of 1..7609 bytes, every open channel", "why_tests_cant": "all sizes and contents end to end through both framing directions", "anchors": ["ctap_hid/channel.go:handleDataMessage", "ctap_hid/channel.go:handleBroadcastMessage", "ctap_hid/ctap_hid.go:createResponsePackets"]}
{"id": "C10", "title": "CANCEL aborts an incomplete request silently", "statement": "A CTAPHID_CANCEL report on an open channel produces no report and leaves the channel idle, whatever was received before on it.", "quantifier": "every reachable channel state", "why_tests_cant": "every partial history", "anchors": ["ctap_hid/transaction.go:cancel", "ctap_hid/channel.go:handleMessage"]}
{"id": "C11", "title": "A channel is never wedged", "statement": "After any history of reports on a channel that did not crash the device, if the last report produced an error or completed a request then a complete well-formed request sent next is acted on normally; at any other time sending CANCEL first has the same effect.", "quantifier": "every finite history of reports", "why_tests_cant": "unbounded histories", "anchors": ["ctap_hid/channel.go:handleMessage", "ctap_hid/transaction.go:addMessage"]}
{"id": "C12", "title": "Oversized requests are never acted on", "statement": "A request announcing more than 7609 bytes sent in 64-byte reports is never acted on; its 129th continuation report is answered with ERR_INVALID_SEQ.", "quantifier": "every announced length 7610..65535, all report contents", "why_tests_cant": "all lengths and contents", "anchors": ["ctap_hid/transaction.go:addMessage"]}
{"id": "C13", "title": "Answers go back on the channel and with the command of the request", "statement": "Every report sent while a request of channel c is handled carries channel id c, and is either a CTAPHID_ERROR, a keepalive, or a response with the command of the request.", "quantifier": "every report, every server state, every upper-layer behaviour", "why_tests_cant": "all states and all upper layer results", "anchors": ["ctap_hid/channel.go:handleDataMessage", "ctap_hid/ctap_hid.go:sendResponse"]}
{"id": "C14", "title": "Exactly which reports crash the CTAPHID layer", "statement": "Handling a report panics (which kills the process, since no goroutine recovers) exactly when the report is too short to hold the header it needs, or completes a request whose command is not one of MSG/CBOR/PING (or INIT/PING on the broadcast channel), or is an INIT with fewer than 8 bytes available, or an upper layer panics. The wished-for property that no host report crashes the device is false.", "quantifier": "every server state and every report", "why_tests_cant": "all inputs and states", "anchors": ["ctap_hid/channel.go:handleBroadcastMessage", "ctap_hid/channel.go:handleDataMessage", "util/util.go:ReadLE"]}
{"id": "C15", "title": "Device-to-host packets are delivered in order, none lost or duplicated", "statement": "For every history of Request, CancelRequest and Respond calls, the packets handed to request callbacks are, in order, exactly an initial part of the packets passed to Respond, and the rest are still queued in order.", "quantifier": "every finite history of calls, every choice Go's map iteration makes", "why_tests_cant": "map iteration order is random and histories are unbounded", "anchors": ["util/request_buffer.go:Request", "util/request_buffer.go:Respond", "util/request_buffer.go:CancelRequest"]}
{"id": "C16", "title": "An interrupt-IN transfer completes exactly once", "statement": "When request ids are not reused while a timer may still fire, each IN transfer's completion callback runs at most once, and once its one-second timer has fired it has run exactly once unless the transfer was unlinked. (With id reuse a request can be left without any completion.)", "quantifier": "every interleaving of requests, responses, unlinks and timer firings with distinct ids", "why_tests_cant": "races between timers, responses and unlinks", "anchors": ["usb/usb_device.go:HandleMessage", "util/request_buffer.go", "util/util.go:SetTimeout"]}
{"id": "C17", "title": "Unlink reports truthfully and is final", "statement": "CancelRequest returns true exactly when the request was still waiting, and after it returned true the request's callback is never run by a later Respond unless the id is submitted again.", "quantifier": "every history of calls", "why_tests_cant": "unbounded histories and nondeterministic map choice", "anchors": ["util/request_buffer.go:CancelRequest", "usbip/usbip_server.go:handleCommandUnlink"]}
{"id": "C18", "title": "Delivery order survives the unlocked callback", "statement": "Respond runs the callback after releasing the lock. For every interleaving of its two halves with Request and CancelRequest calls, as long as Respond calls themselves do not overlap (as the HID server's response lock guarantees), callbacks receive packets in Respond order. With two overlapping Respond calls this fails.", "quantifier": "every interleaving of small steps", "why_tests_cant": "thread interleavings inside a critical window", "anchors": ["util/request_buffer.go:Respond", "ctap_hid/ctap_hid.go:sendResponsePackets"]}
{"id": "C19", "title": "Packets of one response and bytes of one reply are never interleaved", "statement": "For every number of concurrent senders and every schedule, what reaches the response handler (or the USB/IP socket) is a concatenation of whole responses, plus at most a prefix of the one currently being sent.", "quantifier": "every number of threads, every schedule, every response", "why_tests_cant": "unbounded schedules", "anchors": ["ctap_hid/ctap_hid.go:sendResponsePackets", "usbip/usbip_server.go:writeResponse"]}
{"id": "C20", "title": "RET_SUBMIT is well framed", "statement": "For every submitted URB that completes, the reply is 48 header bytes echoing the sequence number, followed, for IN transfers only, by exactly ActualLength bytes: the device's data cut or zero-padded to the requested length. OUT replies carry no data.", "quantifier": "every header, transfer length, direction and device response", "why_tests_cant": "all lengths and responses", "anchors": ["usbip/usbip_server.go:handleCommandSubmit", "usbip/usbip.go:replyHeader"]}
{"id": "C21", "title": "The USB/IP command stream is decoded exactly", "statement": "For every sequence of SUBMIT and UNLINK commands a client writes, the device layer receives exactly that sequence with the same fields and data, when each read of the socket returns the bytes asked for. (If TCP delivers a transfer buffer in pieces the remaining stream is misparsed: the unconditional claim is false.)", "quantifier": "every finite sequence of commands and every segmentation of the byte stream", "why_tests_cant": "TCP segmentation is not controllable from a unit test and sequences are unbounded", "anchors": ["usbip/usbip_server.go:handleCommands", "usbip/usbip_server.go:handleCommandSubmit", "util/util.go:Read"]}
{"id": "C22", "title": "OP_REQ_DEVLIST lists the exported devices", "statement": "A device-list request is answered with the list of exported devices. (False: the reply structure holds a slice, which encoding/binary rejects, the error is dropped and nothing is sent, for every device list.)", "quantifier": "every list of exported devices", "why_tests_cant": "the failure is a dropped error inside a generic helper; for all device lists", "anchors": ["usbip/usbip_server.go:handle", "usbip/usbip.go:newOpRepDevlist", "util/util.go:ToBE"]}
{"id": "C23", "title": "OP_REQ_IMPORT answers truthfully", "statement": "An import request naming a bus id is answered with status 0 and the summary of the first exported device with exactly that bus id if there is one, and with status 1 and no device otherwise; in the second case the connection keeps serving control requests.", "quantifier": "every device list and every 32-byte NUL-terminated bus id field", "why_tests_cant": "all device lists and bus ids", "anchors": ["usbip/usbip_server.go:handle", "usbip/usbip_server.go:getDevice", "util/util.go:CStringToString"]}
{"id": "C24", "title": "The server serves the next client after a disconnect", "statement": "After a client that imported the device disconnects, the server accepts another connection. (False: the command loop catches the read failure and retries forever.)", "quantifier": "every continuation of the connection after the client disconnects", "why_tests_cant": "non-termination cannot be observed by a test", "anchors": ["usbip/usbip_server.go:handleCommands", "usbip/usbip_server.go:Start", "util/util.go:Try"]}
{"id": "C25", "title": "Only loopback clients are served", "statement": "A connection is served only if its remote IPv4 address is in 127.0.0.0/24, and every client at 127.0.0.1 is served.", "quantifier": "every IPv4 address and port", "why_tests_cant": "2^48 address/port pairs", "anchors": ["usbip/usbip_server.go:Start"]}
{"id": "C26", "title": "A command that fails does not affect the following commands", "statement": "If handling one command panics in the device layer, no reply is sent for it and the following commands of the stream are handled as if it had not been there.", "quantifier": "every command sequence and every device behaviour", "why_tests_cant": "all positions of failures in unbounded streams", "anchors": ["usbip/usbip_server.go:handleCommands", "util/util.go:Try"]}
{"id": "C27", "title": "USB descriptors are self-consistent", "statement": "Every descriptor the device returns carries its own length, the configuration descriptor's total length is the length of the whole answer, it lists exactly as many interfaces and endpoints as announced, and the announced HID report length is the length of the report descriptor actually returned.", "quantifier": "every descriptor type and index", "why_tests_cant": "all 65536 wValue values including the panicking ones", "anchors": ["usb/usb_device.go:getDescriptor", "usb/usb_device.go:handleInterfaceRequest"]}
{"id": "C28", "title": "Setup packets are decoded per field and setters do not interfere", "statement": "Setting direction, class or recipient of a setup packet makes the matching getter return that value and leaves the other two unchanged. (The class field is read from bits 5..4 instead of USB's bits 6..5, so it disagrees with the USB specification.)", "quantifier": "every bmRequestType byte and every field value", "why_tests_cant": "the whole byte domain and the USB specification as oracle", "anchors": ["usb/usb.go:direction", "usb/usb.go:requestClass", "usb/usb.go:recipient"]}
{"id": "C29", "title": "COSE private keys survive marshalling", "statement": "UnmarshalCOSEPrivateKey(MarshalCOSEPrivateKey(k)) is a key equal to k, for every P-256 ECDSA, Ed25519 and RSA key, including numbers with leading zero bytes.", "quantifier": "every key of each kind", "why_tests_cant": "rare key values (leading zeros) and all sizes", "anchors": ["cose/cose.go:MarshalCOSEPrivateKey", "cose/cose.go:UnmarshalCOSEPrivateKey"]}
{"id": "C30", "title": "COSE public keys survive marshalling", "statement": "UnmarshalCOSEPublicKey(MarshalCOSEPublicKey(k)) is k for every ECDSA and Ed25519 key. (For RSA it is false for every key: the exponent is dropped on encoding and decoding always panics.)", "quantifier": "every public key of each kind", "why_tests_cant": "all keys; the RSA failure needs the dropped-error path", "anchors": ["cose/cose.go:MarshalCOSEPublicKey", "cose/cose.go:UnmarshalCOSEPublicKey", "util/util.go:ToBE", "util/util.go:FromBE"]}
{"id": "C31", "title": "Published P-256 coordinates have 32 bytes", "statement": "The COSE key in an attestation carries 32-byte x and y coordinates as RFC 9053 requires. (False exactly for the keys with a coordinate below 2^248.) The COSE form of the other keys has the key type, algorithm and curve of RFC 9053 and RFC 8230 and the key itself. (But of an RSA key the exponent is missing.)", "quantifier": "every P-256, Ed25519 and RSA public key", "why_tests_cant": "fails for about 1 key in 128, so tests pass almost always", "anchors": ["cose/cose.go:encodeECDSAPublicKey", "ctap/ctap.go:makeAttestedCredentialData"]}
{"id": "C32", "title": "Key equality is an equivalence", "statement": "SupportedCOSEPrivateKey.Equal is reflexive, symmetric, transitive and true only for equal key material; SupportedCOSEPublicKey.Equal likewise. (The public version is not reflexive: it answers false for every Ed25519 key.)", "quantifier": "every triple of keys", "why_tests_cant": "all keys and combinations of kinds", "anchors": ["cose/cose.go:Equal"]}
{"id": "C33", "title": "Sign, Public, Marshal and attestation pick the same key", "statement": "For every private key structure, including ones with several kinds set, the signature made with it verifies under the public key returned by Public(), under the key in the attestation certificate, and under the key obtained from the marshalled form; certificates made with it as the authority verify under Public() too; Verify accepts nothing that the algorithm of a key in the structure rejects; a structure with no key panics in all of them.", "quantifier": "every combination of key kinds", "why_tests_cant": "all combinations of optional fields", "anchors": ["cose/cose.go:Sign", "cose/cose.go:Public", "identities/attestation.go:extractPublicKey", "identities/attestation.go:extractPrivateKey"]}
{"id": "C34", "title": "CBOR answers are decodable and canonical", "statement": "Every CBOR answer of the device is a single well-formed CBOR item in CTAP2 canonical form (shortest heads, sorted unique keys) that decodes to the answer's content.", "quantifier": "every answer structure with any field contents below 2^64 bytes", "why_tests_cant": "all lengths (head sizes change at 24, 256, 65536, 2^32) and contents", "anchors": ["util/util.go:MarshalCBOR", "ctap/ctap.go:makeCredentialResponse", "ctap/ctap.go:getAssertionResponse", "ctap/ctap.go:getInfoResponse", "ctap/ctap.go:clientPINResponse"]}
{"id": "C35", "title": "Deleting an identity removes exactly that identity", "statement": "DeleteIdentity(id) returns true exactly when a credential with that id exists, then removes exactly one such credential and keeps all others; otherwise nothing changes.", "quantifier": "every vault and id", "why_tests_cant": "all vault sizes and positions (first, last, only, duplicate)", "anchors": ["identities/identity_vault.go:DeleteIdentity", "fido_client/fido_client.go:DeleteIdentity"]}
{"id": "C36", "title": "Credential lookup returns exactly the matching credentials in order", "statement": "GetMatchingCredentialSources returns, in vault order, exactly the credentials whose relying party id equals the requested one and, when an allow list is given, whose id is in it; each once.", "quantifier": "every vault, relying party id and allow list (absent, empty or with duplicates)", "why_tests_cant": "all vaults and lists", "anchors": ["identities/identity_vault.go:GetMatchingCredentialSources"]}
{"id": "C37", "title": "Importing an exported vault restores keys, ids, types and counters", "statement": "Export followed by Import into an empty vault yields the same credentials in the same order with the same id, type, private key and signature counter.", "quantifier": "every vault whose keys are supported", "why_tests_cant": "all vaults", "anchors": ["identities/identity_vault.go:Export", "identities/identity_vault.go:Import"]}
{"id": "C38", "title": "Importing an exported vault restores relying parties and users", "statement": "After Import every credential has the relying party and user it was exported with. (False as soon as two credentials differ in them: all imported credentials share the loop variable's relying party and user, i.e. those of the last credential.)", "quantifier": "every vault", "why_tests_cant": "needs two or more credentials and the language version's loop-variable semantics", "anchors": ["identities/identity_vault.go:Import", "go.mod"]}
{"id": "C39", "title": "The saved blob opens with its passphrase to the saved state", "statement": "DecryptFIDOState(EncryptFIDOState(s, p), p) succeeds and returns s (with an empty PIN hash read back as absent).", "quantifier": "every state, passphrase and random draw", "why_tests_cant": "all states and salts", "anchors": ["identities/saved_state.go:EncryptFIDOState", "identities/saved_state.go:DecryptFIDOState"]}
{"id": "C40", "title": "After every completed operation the saved data reflects memory", "statement": "After any history of requests, API calls and restarts, what would be loaded by a restart has the same credentials (ids, keys, counters), PIN hash, PIN switch and device keys as the running process, once an operation that changes them has completed.", "quantifier": "every history of CTAP and U2F messages, API calls and restarts", "why_tests_cant": "unbounded histories", "anchors": ["fido_client/fido_client.go:saveData", "fido_client/fido_client.go:exportData", "fido_client/fido_client.go:importData"]}
{"id": "C41", "title": "A crash never leaves saved data other than before or after the operation", "statement": "If handling a message panics at any point, the saved data is what it was before the message or what a completed save of that operation wrote.", "quantifier": "every message, state and crash point inside the handlers", "why_tests_cant": "crash points", "anchors": ["fido_client/fido_client.go:saveData", "fido_client/fido_client.go:NewCredentialSource"]}
{"id": "C42", "title": "The demo's vault file survives a crash during save", "statement": "After a crash at any point of SaveData the file holds the old or the new vault. (False: the file is truncated first, and the next start panics.)", "quantifier": "every crash point, old and new content", "why_tests_cant": "crash points between truncate and write", "anchors": ["cmd/demo/server.go:SaveData", "cmd/demo/server.go:RetrieveData"]}
{"id": "C43", "title": "A credential is created only with the user's approval", "statement": "A MakeCredential request returns success only if the approver was asked for that relying party during the request and agreed; if the approver refuses, the answer is OPERATION_DENIED and no credential is created or saved.", "quantifier": "every request, device state and random draw", "why_tests_cant": "all requests and states", "anchors": ["ctap/ctap.go:handleMakeCredential", "fido_client/fido_client.go:ApproveAccountCreation"]}
{"id": "C44", "title": "With a PIN set, creation requires PIN authentication", "statement": "When PIN support is on and a PIN is set, MakeCredential succeeds only with a protocol-1 pinAuth equal to the first 16 bytes of HMAC-SHA-256(pin token, clientDataHash).", "quantifier": "every request and state", "why_tests_cant": "all requests", "anchors": ["ctap/ctap.go:handleMakeCredential", "ctap/ctap.go:derivePINAuth"]}
{"id": "C45", "title": "The authenticator data says what happened", "statement": "In every successful MakeCredential or GetAssertion answer the relying party hash is SHA-256 of the requested id, the user-present flag is set iff the approver agreed during this request, the user-verified flag iff a valid pinAuth was given with PIN support on, the attested-data flag iff a credential was created, and the counter is the credential's counter.", "quantifier": "every successful request and state", "why_tests_cant": "all requests and states", "anchors": ["ctap/ctap.go:makeAuthData", "ctap/ctap.go:handleMakeCredential", "ctap/ctap.go:handleGetAssertion"]}
{"id": "C46", "title": "A created credential is stored, saved and attested", "statement": "A successful MakeCredential adds exactly one credential, with the requested relying party and user, to the end of the vault, saves it, and returns authenticator data from which a relying party parses that credential's id and public key, with an attestation signature over authData||clientDataHash that verifies under it.", "quantifier": "every successful request and state", "why_tests_cant": "all requests and states", "anchors": ["ctap/ctap.go:handleMakeCredential", "ctap/ctap.go:makeAttestedCredentialData", "fido_client/fido_client.go:NewCredentialSource"]}
{"id": "C47", "title": "An assertion uses a credential of the requested relying party", "statement": "A successful GetAssertion names a credential in the vault whose relying party id is the requested one and, if an allow list was sent, whose id is in it; its signature over authData||clientDataHash verifies under that credential's public key.", "quantifier": "every request and state", "why_tests_cant": "all requests and states", "anchors": ["ctap/ctap.go:handleGetAssertion", "fido_client/fido_client.go:GetAssertionSource"]}
{"id": "C48", "title": "An assertion needs the user unless up=false", "statement": "A GetAssertion without the option up=false succeeds only if the approver was asked about that credential and agreed; if refused the answer is OPERATION_DENIED and nothing is signed.", "quantifier": "every request and state", "why_tests_cant": "all requests and states", "anchors": ["ctap/ctap.go:handleGetAssertion"]}
{"id": "C49", "title": "No matching credential means NO_CREDENTIALS and no effect", "statement": "GetAssertion answers NO_CREDENTIALS exactly when PIN authentication did not fail and no stored credential matches, and then changes nothing.", "quantifier": "every request and state", "why_tests_cant": "all requests and states", "anchors": ["ctap/ctap.go:handleGetAssertion", "fido_client/fido_client.go:GetAssertionSource"]}
{"id": "C50", "title": "Signature counters strictly increase", "statement": "Over any history in one process and across restarts, the counters in successive successful assertions of one credential strictly increase, for fewer than 2^32 uses.", "quantifier": "every history of messages, API calls and restarts", "why_tests_cant": "unbounded histories", "anchors": ["fido_client/fido_client.go:GetAssertionSource", "ctap/ctap.go:makeAuthData"]}
{"id": "C51", "title": "A refused login leaves no trace", "statement": "If the user refuses an assertion the device state is unchanged. (False: the signature counter is incremented and saved before the user is asked.)", "quantifier": "every state and request", "why_tests_cant": "ordering of effects inside the handler", "anchors": ["fido_client/fido_client.go:GetAssertionSource", "ctap/ctap.go:handleGetAssertion"]}
{"id": "C52", "title": "The exclude list is honoured", "statement": "MakeCredential is refused when a credential in the exclude list exists for the relying party. (False: the list is never read.)", "quantifier": "every request and state", "why_tests_cant": "needs the specification as oracle for all lists", "anchors": ["ctap/ctap.go:handleMakeCredential", "fido_client/fido_client.go:NewCredentialSource"]}
{"id": "C53", "title": "setPIN works only while no PIN is set", "statement": "A setPIN request changes the PIN only if none is set, its pinAuth verifies, and the decrypted PIN has at least 4 bytes; in all other cases PIN and retry counter are unchanged.", "quantifier": "every request and state", "why_tests_cant": "all requests", "anchors": ["ctap/ctap.go:handleSetPIN", "ctap/ctap.go:decryptPIN"]}
{"id": "C54", "title": "The PIN is replaced only by someone who knows it", "statement": "A changePIN request changes a set PIN only if it carries the hash of the current PIN encrypted under the shared secret and a verifying pinAuth.", "quantifier": "every request and state", "why_tests_cant": "all requests", "anchors": ["ctap/ctap.go:handleChangePIN"]}
{"id": "C55", "title": "The PIN token is released only against the PIN", "statement": "getPINToken returns the token only if the decrypted PIN hash equals the stored one. When no PIN is set no token is released. (The second half is false: an empty pinHashEnc matches the absent PIN.)", "quantifier": "every request and state", "why_tests_cant": "all requests; the empty-string corner", "anchors": ["ctap/ctap.go:handleGetPINToken"]}
{"id": "C56", "title": "At most eight wrong PINs in a row", "statement": "In any history of messages within one process, at most 8 PIN_INVALID answers are given between two successful PIN operations; once 8 have been given no further PIN attempt is evaluated.", "quantifier": "every finite history of CTAP messages", "why_tests_cant": "unbounded histories", "anchors": ["ctap/ctap.go:handleChangePIN", "ctap/ctap.go:handleGetPINToken", "fido_client/fido_client.go:PINRetries"]}
{"id": "C57", "title": "A locked-out PIN is reported as PIN_BLOCKED", "statement": "After eight wrong PINs further attempts are answered PIN_BLOCKED. (False: reading the retry counter panics at 0, so the device crashes.)", "quantifier": "every state with no retries left", "why_tests_cant": "the crash is in an assertion in another package", "anchors": ["fido_client/fido_client.go:PINRetries", "ctap/ctap.go:handleGetPINToken"]}
{"id": "C58", "title": "PIN lock-out survives a restart", "statement": "The retry counter after a restart is the one before it. (False: it is reset to 8 at every start. So whoever can start the program anew finds the PIN by trying: however many guesses they make, starting the program before each, every guess is evaluated, and the right one gets a token.)", "quantifier": "every state", "why_tests_cant": "crosses process lifetimes", "anchors": ["fido_client/fido_client.go:NewDefaultClient", "fido_client/fido_client.go:exportData"]}
{"id": "C59", "title": "A conforming platform can set a PIN, get the token and prove user verification", "statement": "A platform following CTAP PIN protocol 1 that sends setPIN with a PIN of 4..63 non-zero bytes on a fresh device, then getPINToken with it, obtains exactly the device's token, and a MakeCredential authenticated with it carries the user-verified flag, provided the shared ECDH x-coordinate has no leading zero byte (without the proviso both sides hash different strings).", "quantifier": "every PIN, key pair and shared secret", "why_tests_cant": "all PINs and keys; about 1 in 256 key pairs fails", "anchors": ["ctap/ctap.go:handleSetPIN", "ctap/ctap.go:handleGetPINToken", "crypto/crypto.go:ECDH"]}
{"id": "C60", "title": "GetInfo tells the truth about PIN state", "statement": "GetInfo reports clientPin=true iff PIN support is on and a PIN is set, clientPin=false iff it is on and none is set, omits it otherwise, and changes nothing.", "quantifier": "every state", "why_tests_cant": "all states", "anchors": ["ctap/ctap.go:handleGetInfo"]}
{"id": "C61", "title": "Each command changes only what it may change", "statement": "MakeCredential only appends a credential, GetAssertion only increments one counter, ClientPIN only changes PIN hash and retry counter, GetInfo nothing; none changes device keys, PIN token or the PIN switch.", "quantifier": "every message and state, including failing and panicking ones", "why_tests_cant": "all messages", "anchors": ["ctap/ctap.go:HandleMessage"]}
{"id": "C62", "title": "U2F registration yields a usable, verifiable key", "statement": "A successful registration answer parses, per the U2F raw message format, into a 65-byte public key, a key handle of at most 255 bytes, a certificate and a signature over 0||app||challenge||handle||pubkey that verifies under that key; it happens only if the approver agreed; otherwise the answer is 0x6985 and carries no handle.", "quantifier": "every challenge, application, state and random draw", "why_tests_cant": "all inputs", "anchors": ["u2f/u2f.go:handleU2FRegister"]}
{"id": "C63", "title": "A registered key handle authenticates for its own application only", "statement": "Authenticating with the handle returned by a registration signs app||1||counter||challenge verifiably under the registered key for the same application parameter, and answers WRONG_DATA for every other application, also after a restart.", "quantifier": "every registration, application, challenge and later state with the same device key", "why_tests_cant": "all pairs of applications and histories", "anchors": ["u2f/u2f.go:handleU2FAuthenticate", "u2f/u2f.go:openKeyHandle"]}
{"id": "C64", "title": "U2F signs only for handles this device sealed", "statement": "A successful authenticate answer implies the given handle opens under the device's sealing key to a private key bound to the given application.", "quantifier": "every request", "why_tests_cant": "adversarial handles", "anchors": ["u2f/u2f.go:openKeyHandle", "crypto/crypto.go:Open"]}
{"id": "C65", "title": "Foreign key handles are answered WRONG_DATA", "statement": "A key handle not made by this device is answered 0x6A80. (False for handles that parse as CBOR boxes: opening them panics.)", "quantifier": "every handle", "why_tests_cant": "adversarial handles", "anchors": ["crypto/crypto.go:Open", "u2f/u2f.go:openKeyHandle"]}
{"id": "C66", "title": "U2F user presence is asked for when demanded", "statement": "Control byte 0x03 signs only if the approver agreed; 0x07 never signs and never asks; the user-presence byte of the answer is 1 only if the approver agreed. (The last part is false for control byte 0x08.)", "quantifier": "every request and state", "why_tests_cant": "all control bytes", "anchors": ["u2f/u2f.go:handleU2FAuthenticate"]}
{"id": "C67", "title": "The U2F counter strictly increases", "statement": "Successive successful authentications in one process carry strictly increasing counters for fewer than 2^32 uses. (Across restarts this fails: the counter is not saved when it is used.)", "quantifier": "every history", "why_tests_cant": "unbounded histories and restarts", "anchors": ["fido_client/fido_client.go:NewAuthenticationCounterId", "u2f/u2f.go:handleU2FAuthenticate"]}
{"id": "C68", "title": "U2F request framing is decoded exactly", "statement": "Every extended-length APDU with data of 1..65535 bytes, with or without a response length, is decoded to the same header, data and response length.", "quantifier": "every header, data and response length", "why_tests_cant": "all sizes", "anchors": ["u2f/u2f.go:decodeU2FMessage"]}
{"id": "C69", "title": "Log levels gate output", "statement": "For every history of logging calls, SetLogLevel and SetLogOutput, a message reaches the output iff an output was set and some level at most the message's level was ever set (or the message is at Enabled level); each message is written at most once and none is lost; messages of one level keep their order.", "quantifier": "every history", "why_tests_cant": "unbounded histories with buffering before configuration", "anchors": ["util/log.go"]}
{"id": "C70", "title": "demo delete removes the identity the user named", "statement": "`demo delete --identity P` deletes the only identity whose hex id starts with P. (False: the loop variable's address is kept, so the last identity is deleted.)", "quantifier": "every vault and prefix", "why_tests_cant": "loop-variable aliasing", "anchors": ["cmd/demo/demo.go:deleteIdentity"]}
{"id": "C71", "title": "Demo approval only on an explicit yes, for a question that names the action", "statement": "The demo approves only when the trimmed, lower-cased answer is y or yes, and the question shown names the action approved. (The second half is false: the two U2F questions are swapped.)", "quantifier": "every input line and action", "why_tests_cant": "all strings", "anchors": ["cmd/demo/server.go:prompt", "cmd/demo/server.go:ApproveClientAction"]}
{"id": "C72", "title": "Keepalives stop and leak nothing", "statement": "After the stop signal the keepalive loop runs its function at most once more, provided a helper's interval does not elapse between its start and the loop's next wait; its helper goroutines never block, and everything terminates within a bounded number of steps. (That no keepalive follows the final response is false.)", "quantifier": "every interleaving of timer, loop and stop", "why_tests_cant": "goroutine interleavings", "anchors": ["util/util.go:StartRecurringFunction", "ctap_hid/channel.go:handleDataMessage"]}
{"id": "C73", "title": "Concurrent authentications get distinct counters", "statement": "Two U2F authentications on different channels handled concurrently get different counters. (False: the read and the increment are not atomic and nothing locks the client.)", "quantifier": "every interleaving", "why_tests_cant": "thread interleavings", "anchors": ["fido_client/fido_client.go:NewAuthenticationCounterId", "ctap_hid/channel.go:handleMessage"]}
{"id": "C74", "title": "HID reports reach the FIDO layer exactly once and unchanged", "statement": "For every stream of USB/IP commands to the imported device, the reports handed to the FIDO layer are exactly the data of the transfers on the interrupt OUT endpoint, each once, byte for byte, started in the order the host sent them; each such transfer is acknowledged at once with its full length.", "quantifier": "every finite sequence of well-formed SUBMIT and UNLINK commands and every device state", "why_tests_cant": "unbounded command sequences and data; composition of the USB/IP and USB layers", "anchors": ["usbip/usbip_server.go:handleCommandSubmit", "usb/usb_device.go:HandleMessage"]}
{"id": "C75", "title": "Exactly the supported control requests are answered", "statement": "A control transfer is answered if and only if it is, to the device, GET_DESCRIPTOR of the device, the configuration or strings 0-5, SET_CONFIGURATION or GET_STATUS, or, to the interface, SET_IDLE, SET_PROTOCOL or GET_DESCRIPTOR of the report descriptor; in every other case the host gets no reply at all. No control request changes the device.", "quantifier": "all 2^64 setup packets and every device state", "why_tests_cant": "the space of setup packets cannot be enumerated", "anchors": ["usb/usb_device.go:handleControlMessage", "usb/usb_device.go:handleDeviceRequest", "usb/usb_device.go:handleInterfaceRequest", "usb/usb_device.go:getDescriptor"]}
{"id": "C76", "title": "A valid creation request succeeds", "statement": "On a healthy device that can attest, a MakeCredential request offering ES256, with relying party and user in valid UTF-8, that meets the PIN requirement is answered with success as soon as the user agrees.", "quantifier": "every such request, device state and random draw", "why_tests_cant": "success must hold for every vault content and every request, including the saving step", "anchors": ["ctap/ctap.go:handleMakeCredential", "fido_client/fido_client.go:saveData"]}
{"id": "C77", "title": "A valid assertion request succeeds", "statement": "On a healthy device with a matching credential, a GetAssertion request that meets the PIN requirement is answered with success as soon as the user agrees (or at once with up=false).", "quantifier": "every such request, device state and random draw", "why_tests_cant": "success must hold for every vault content and every request, including the saving step", "anchors": ["ctap/ctap.go:handleGetAssertion", "fido_client/fido_client.go:saveData"]}
{"id": "C78", "title": "After a restart a credential still belongs to its relying party", "statement": "After any history and a restart, a credential can be used by the relying party it was created for, and by no other. (False: after a restart all credentials belong to the relying party of the one stored last; that relying party can use every credential, and the others get NO_CREDENTIALS.)", "quantifier": "every history of CTAP and U2F messages, API calls and restarts, every request after the restart", "why_tests_cant": "unbounded histories; needs two relying parties, a restart and then a request", "anchors": ["identities/identity_vault.go:Import", "fido_client/fido_client.go:importData", "ctap/ctap.go:handleGetAssertion"]}
{"id": "C79", "title": "The demo's login question tells what is approved", "statement": "Two different pairs of relying party and user never lead to the same login question. (False: names are quoted but quotes in them are not escaped. True when relying party names contain no quote.)", "quantifier": "all relying party and user names", "why_tests_cant": "all strings", "anchors": ["cmd/demo/server.go:ApproveClientAction"]}
{"id": "C80", "title": "Each line answers one of the demo's questions", "statement": "The n-th question is answered by the n-th line of input, provided each read from the terminal returns one line. (Without the proviso false: every question makes a new buffered reader, and what it has read beyond its line is lost; a later yes can answer a question that was answered with no.)", "quantifier": "every sequence of lines and every division of the input into reads", "why_tests_cant": "depends on how reads divide the input", "anchors": ["cmd/demo/server.go:prompt"]}
{"id": "C81", "title": "The PIN set with the demo is the PIN typed", "statement": "After `demo pin set --pin P` succeeds and the device is started with PINs enabled, a platform that is given P gets the PIN token. (Proved for 4 to 18 digits without leading zero, after every history. False with a leading zero: 012345 is read as an octal number, and no PIN with a leading zero can ever be set.)", "quantifier": "every history and every PIN", "why_tests_cant": "all numerals, composed with saving, restarting and the PIN protocol", "anchors": ["cmd/demo/demo.go:setPIN", "fido_client/fido_client.go:SetPIN", "ctap/ctap.go:handleGetPINToken"]}
{"id": "C82", "title": "demo list shows every credential", "statement": "After any history `demo list` starts, does not crash and prints one line per credential, in order, with the beginning of its id and the names of user and relying party.", "quantifier": "every history of CTAP and U2F messages, API calls and restarts", "why_tests_cant": "unbounded histories; the code dereferences pointers and slices ids without checks", "anchors": ["cmd/demo/demo.go:listIdentities", "fido_client/fido_client.go:Identities"]}
{"id": "C83", "title": "Every polled transfer is answered once or withdrawn, never both", "statement": "When the client unlinks a transfer, the server answers at once, saying 'withdrawn' just in case the transfer is an interrupt IN transfer it has read and neither completed nor withdrawn. A transfer asking for a report is completed or withdrawn, never both and neither twice; every other command is answered at most once; a transfer handing over a report and an unlink command are answered exactly once as soon as they are read; there are no other replies.", "quantifier": "every session (any finite sequence of submits and unlinks with distinct sequence numbers) and every schedule of reading, goroutines, deliveries and time-outs", "why_tests_cant": "unlinks race with completions; every interleaving of every session", "anchors": ["usbip/usbip_server.go:handleCommands", "usb/usb_device.go:RemoveWaitingRequest", "util/request_buffer.go:CancelRequest", "util/request_buffer.go:Request"]}
{"id": "C84", "title": "The host receives the reports sent, in order", "statement": "In every session and schedule the reports the client receives on a channel are those the FIDO layer sent on it, in order, unchanged, without loss or duplication, apart from those still queued in the device. (On all channels together the same, except that a transfer not answered within a second is completed with a report of 64 zero bytes nobody sent; it is on channel 0.)", "quantifier": "every session, schedule, authenticator and time-out", "why_tests_cant": "unbounded sessions and interleavings", "anchors": ["usb/usb_device.go:HandleMessage", "util/request_buffer.go:Respond", "ctap_hid/ctap_hid.go:sendResponsePackets"]}
{"id": "C85", "title": "A request over USB/IP is answered", "statement": "When a client, after any earlier traffic, hands over the reports of a CTAP2 or U2F request on an allocated idle channel, and the goroutines handling the reports run in the order they were started, then the authenticator is run exactly once on exactly that message, and the client receives on that channel keep-alives (none for U2F) and then exactly the answer. (Without the condition on goroutines false: each report has a goroutine of its own, and when two change places the client gets an error and the authenticator is not asked.)", "quantifier": "every earlier traffic, request, answer of at most 7609 bytes, division into reads and schedule of polls, deliveries and time-outs", "why_tests_cant": "composition of four layers over every interleaving", "anchors": ["usbip/usbip_server.go:handleCommands", "usb/usb_device.go:HandleMessage", "ctap_hid/ctap_hid.go:HandleMessage"]}
{"id": "C86", "title": "Over USB/IP clients see the authenticator and nothing else", "statement": "For every session and schedule with reports of at most 64 bytes there is a history of CTAP2 and U2F requests such that the authenticator is in the state after exactly this history; each request is carried by reports of its own channel, no report serving two; and on each channel the client receives exactly the answers to its own requests, in order and unchanged, apart from what is still queued. So everything proved about histories holds for clients on the USB/IP socket.", "quantifier": "every session, schedule, device state and authenticator environment; answers of 1 to 7609 bytes", "why_tests_cant": "a refinement of the whole program by the authenticator: all histories, all interleavings", "anchors": ["virtual_fido.go:Start", "usbip/usbip_server.go:handleCommands", "usb/usb_device.go:HandleMessage", "ctap_hid/ctap_hid.go:HandleMessage", "ctap/ctap.go:HandleMessage", "u2f/u2f.go:HandleMessage"]}
{"id": "C87", "title": "The outcome of every CTAP2 request", "statement": "After any history, every CTAP2 request, whatever its bytes, has exactly the outcome (success, a particular error status alone, or the end of the process) that a decision table gives for it: which of unsupported algorithm, wrong or missing PIN proof, missing relying party, refusal, no credential, blocked or wrong PIN, bad parameters, unknown subcommand or command comes first.", "quantifier": "every history of CTAP and U2F messages, API calls and restarts of a device that can attest, and every request", "why_tests_cant": "the order of checks matters for every combination of conditions", "anchors": ["ctap/ctap.go:HandleMessage", "ctap/ctap.go:handleMakeCredential", "ctap/ctap.go:handleGetAssertion", "ctap/ctap.go:handleClientPIN"]}
{"id": "C88", "title": "The outcome of every U2F request", "statement": "After any history, every U2F request, whatever its bytes, has exactly the outcome (success, a particular status word alone, or the end of the process) that a decision table gives for it, from the framing of the request and the state of the key handle to the control byte and the user's decision.", "quantifier": "every history of CTAP and U2F messages, API calls and restarts of a device that can attest, and every request", "why_tests_cant": "all byte strings, including truncated requests, which are partly padded with zeros and partly fatal", "anchors": ["u2f/u2f.go:HandleMessage", "u2f/u2f.go:decodeU2FMessage", "u2f/u2f.go:handleU2FRegister", "u2f/u2f.go:handleU2FAuthenticate"]}
{"id": "C89", "title": "The device holds exactly the credentials announced and not deleted", "statement": "After any history, with restarts and crashes, the credentials the device lists are exactly those announced by its successful answers to MakeCredential and not deleted since, each once, with the ids and public keys announced. (Random numbers are assumed not to repeat, and the attestation key to work.)", "quantifier": "every history of CTAP and U2F messages, API calls, restarts and crashes", "why_tests_cant": "relates everything ever sent to relying parties with the state after unbounded histories", "anchors": ["fido_client/fido_client.go:NewCredentialSource", "fido_client/fido_client.go:DeleteIdentity", "fido_client/fido_client.go:Identities", "ctap/ctap.go:handleMakeCredential", "identities/identity_vault.go:IdentityVault"]}
{"id": "C90", "title": "Every assertion comes from an announced credential", "statement": "A successful assertion, after any history, names a credential announced by an earlier answer of the device to MakeCredential and not deleted since, and its signature over the authenticator data and the client data hash verifies under the public key announced then. (Random numbers are assumed not to repeat.)", "quantifier": "every history of CTAP and U2F messages, API calls, restarts and crashes, and every request", "why_tests_cant": "the witness for the answer lies arbitrarily far back in the history", "anchors": ["ctap/ctap.go:handleGetAssertion", "ctap/ctap.go:handleMakeCredential", "identities/identity_vault.go:GetMatchingCredentialSources"]}
{"id": "C91", "title": "Credential ids are never reused", "statement": "Two answers to MakeCredential never announce the same credential id, whatever happens before and in between, also when the first credential is deleted or the device restarted. (Random numbers are assumed not to repeat.)", "quantifier": "every device state, pair of creations and history in between", "why_tests_cant": "all histories between two creations", "anchors": ["identities/identity_vault.go:NewIdentity", "ctap/ctap.go:handleMakeCredential"]}
{"id": "C92", "title": "Each action in the user's name was approved, one approval for each", "statement": "Over any history there are, for each kind of action (creation, assertion, U2F registration, U2F authentication), at least as many questions the user agreed to as answers which claim the user's consent; each such answer is given to a request during which the user was asked exactly one question, of this kind, and agreed; and the user is asked at most once per request and never otherwise.", "quantifier": "every history of CTAP and U2F messages, API calls, restarts and crashes, and every behaviour of the user", "why_tests_cant": "a counting property of whole histories", "anchors": ["ctap/ctap.go:handleMakeCredential", "ctap/ctap.go:handleGetAssertion", "u2f/u2f.go:handleU2FRegister", "u2f/u2f.go:handleU2FAuthenticate"]}
{"id": "C93", "title": "Operations that do not overlap behave sequentially", "statement": "If each request or API call begins only when no other is at work, then at every quiet moment the state, the results and whether the process lives are exactly those of handling the operations one after the other, and every sequential history arises in this way.", "quantifier": "every list of operations, restarts and single memory accesses in which operations do not overlap", "why_tests_cant": "ties the handlers split into single memory accesses to the sequential ones, for all histories", "anchors": ["usb/usb_device.go:HandleMessage", "ctap_hid/channel.go:handleMessage", "fido_client/fido_client.go:DefaultFIDOClient", "ctap/ctap.go:HandleMessage", "u2f/u2f.go:HandleMessage"]}
{"id": "C94", "title": "One approval each, however requests overlap", "statement": "However requests on different channels overlap, down to single memory accesses, with API calls, panics and restarts at any moment: each result that claims the user's consent has a question of its own, asked while handling this request, of this kind, to which the user agreed; the user is asked at most once per request and never otherwise.", "quantifier": "every interleaving of the memory accesses of any number of requests and API calls, with restarts at any moment, and every behaviour of the user", "why_tests_cant": "the number of interleavings is unbounded; consent given for one request must never be used for another at work at the same time", "anchors": ["usb/usb_device.go:HandleMessage", "ctap_hid/channel.go:handleMessage", "fido_client/fido_client.go:DefaultFIDOClient", "ctap/ctap.go:handleMakeCredential", "ctap/ctap.go:handleGetAssertion", "u2f/u2f.go:handleU2FRegister", "u2f/u2f.go:handleU2FAuthenticate"]}
{"id": "C95", "title": "Overlapping requests get their own answers", "statement": "However requests overlap, a successful answer is about its own request: the relying party, client data, challenge and application signed are those of the request, the credential or key handle is one that the request allows, the announced key is that of a credential made for the entities of this request, the user-verified flag needs the right pinAuth in this request, and the user agreed to this request.", "quantifier": "every interleaving of the memory accesses of any number of requests and API calls, with restarts at any moment", "why_tests_cant": "mix-ups between requests show only in particular interleavings", "anchors": ["usb/usb_device.go:HandleMessage", "ctap_hid/channel.go:handleMessage", "fido_client/fido_client.go:DefaultFIDOClient", "ctap/ctap.go:handleMakeCredential", "ctap/ctap.go:handleGetAssertion", "u2f/u2f.go:handleU2FRegister", "u2f/u2f.go:handleU2FAuthenticate"]}
{"id": "C96", "title": "The process can be killed while requests overlap", "statement": "Whatever is at work when the process is killed (between two memory accesses or writes of the store), it starts again from its store, with the sealing key, attestation certificate and attestation key it was made with, and every credential it then lists was in memory, with the same key, when it was killed.", "quantifier": "every interleaving of any number of requests and API calls, and every moment of it", "why_tests_cant": "a crash point for each step of each interleaving; the saved state may mix the effects of several requests", "anchors": ["usb/usb_device.go:HandleMessage", "ctap_hid/channel.go:handleMessage", "fido_client/fido_client.go:DefaultFIDOClient", "fido_client/fido_client.go:saveData", "fido_client/fido_client.go:exportData", "fido_client/fido_client.go:NewDefaultClient"]}
{"id": "C97", "title": "The PIN guards creation while requests overlap", "statement": "If a PIN is set and switched on when a MakeCredential request arrives, and nobody is switching it off or begins to, then whatever else is at work before, during and after, the request succeeds only with the pinAuth that the PIN token gives for its client data.", "quantifier": "every interleaving of any number of requests and API calls other than switching the PIN off, with restarts at any moment", "why_tests_cant": "the check and its use are separate memory accesses, between which anything may happen", "anchors": ["usb/usb_device.go:HandleMessage", "ctap_hid/channel.go:handleMessage", "fido_client/fido_client.go:DefaultFIDOClient", "ctap/ctap.go:handleMakeCredential", "fido_client/fido_client.go:PINHash"]}
{"id": "C98", "title": "Only who knows the PIN can change it or get the token, however requests overlap", "statement": "However requests overlap, with panics and restarts at any moment: a request to set or change the PIN or to get the PIN token succeeds only if at one of its own steps it was entitled to that, because there was no PIN and it sets the first, or because it showed the hash of the PIN there was, encrypted under the secret shared with its sender; and the PIN changes only by a step of such a request or of the embedding program's call to set it.", "quantifier": "every interleaving of the memory accesses of any number of requests and API calls, with restarts at any moment", "why_tests_cant": "the check of the old PIN and the writing of the new one are separate memory accesses, between which anything may happen", "anchors": ["usb/usb_device.go:HandleMessage", "ctap_hid/channel.go:handleMessage", "fido_client/fido_client.go:DefaultFIDOClient", "ctap/ctap.go:handleSetPIN", "ctap/ctap.go:handleChangePIN", "ctap/ctap.go:handleGetPINToken", "fido_client/fido_client.go:SetPIN"]}
{"id": "C99", "title": "Overlapping requests cannot get around the limit on wrong PINs", "statement": "While the process runs and no right PIN is entered, at most eight requests are answered \"wrong PIN\", however they overlap.", "quantifier": "every interleaving of any number of PIN requests", "why_tests_cant": "holds for all requests one after the other (C56); an attacker chooses the interleaving", "anchors": ["usb/usb_device.go:HandleMessage", "ctap_hid/channel.go:handleMessage", "fido_client/fido_client.go:DefaultFIDOClient", "ctap/ctap.go:handleGetPINToken", "ctap/ctap.go:handleGetRetries", "fido_client/fido_client.go:SetPINRetries"]}
{"id": "C100", "title": "A credential announced while requests overlap is kept", "statement": "A credential announced by a successful answer to MakeCredential is on the device, also after a restart, until it is deleted, however requests overlap.", "quantifier": "every interleaving of any number of requests and API calls", "why_tests_cant": "a list read before and written after another request's change loses this change, in some interleavings only", "anchors": ["usb/usb_device.go:HandleMessage", "ctap_hid/channel.go:handleMessage", "fido_client/fido_client.go:DefaultFIDOClient", "identities/identity_vault.go:AddIdentity", "fido_client/fido_client.go:NewCredentialSource", "fido_client/fido_client.go:saveData"]}
{"id": "C101", "title": "Signature counters differ while requests overlap", "statement": "Two assertions of the same credential never carry the same signature counter, however the requests overlap.", "quantifier": "every interleaving of any number of requests", "why_tests_cant": "an unlocked increment loses updates in some interleavings only", "anchors": ["usb/usb_device.go:HandleMessage", "ctap_hid/channel.go:handleMessage", "fido_client/fido_client.go:DefaultFIDOClient", "ctap/ctap.go:handleGetAssertion", "identities/identity_vault.go:CredentialSource"]}
{"id": "C102", "title": "A request changes only what its kind may change", "statement": "However requests overlap, each memory access of a request changes only what its kind may change: MakeCredential the list of credentials, GetAssertion changes signature counters, PIN requests the PIN and its retries, U2F authentication the U2F counter, and so on, with questions, random draws and the saved data where listed; keys, certificate, PIN token and the contents of existing credentials other than counters never change; GetInfo, GetRetries, GetKeyAgreement, the U2F version request and unknown commands change nothing.", "quantifier": "every interleaving of the memory accesses of any number of requests and API calls", "why_tests_cant": "a frame property: everything not mentioned stays the same, for all requests in all states", "anchors": ["usb/usb_device.go:HandleMessage", "ctap_hid/channel.go:handleMessage", "fido_client/fido_client.go:DefaultFIDOClient", "ctap/ctap.go:HandleMessage", "u2f/u2f.go:HandleMessage", "fido_client/fido_client.go:DefaultFIDOClient"]}
{"id": "C103", "title": "Every channel gets the answers to its own requests, in order and whole, whatever is going on", "statement": "In whatever order the goroutines that handle reports, the operations of the authenticator, keepalives and API calls take their steps: every report is dealt with at most once, and none is refused on a channel whose first report came after the channel was announced to the host; the requests handed to the authenticator are exactly those in the reports of their channel (none left out, none added), each one is given once and is an operation of its own; on every channel the host reads exactly the results of its own operations, in order, never mixed up with packets of other messages. When nothing more is going on, all reports have been dealt with and all answers have been sent; in particular requests of one report each are each answered exactly once; and where every report of a channel comes in when those before it have been dealt with, all requests on it, of any number of reports, are given to the authenticator and answered in the order in which they were sent. After a panic nothing is sent.", "quantifier": "every interleaving of any number of goroutines, on any number of channels, with any reports of at most 64 bytes", "why_tests_cant": "a statement about all schedules of an unbounded number of goroutines and two kinds of locks", "anchors": ["usb/usb_device.go:HandleMessage", "ctap_hid/channel.go:handleMessage", "fido_client/fido_client.go:DefaultFIDOClient", "usb/usb_device.go:HandleMessage", "ctap_hid/ctap_hid.go:HandleMessage", "ctap_hid/ctap_hid.go:sendResponse", "ctap_hid/channel.go:handleDataMessage"]}
{"id": "C104", "title": "The device never hangs", "statement": "There is no deadlock and no endless work: without further reports and API calls every order of steps ends, and it can only end in a panic or with all goroutines ended, all requests answered and all answers sent.", "quantifier": "every interleaving of any number of goroutines and operations, from every reachable state", "why_tests_cant": "deadlocks appear in particular schedules only; termination is about all infinite ones", "anchors": ["usb/usb_device.go:HandleMessage", "ctap_hid/channel.go:handleMessage", "fido_client/fido_client.go:DefaultFIDOClient", "usb/usb_device.go:HandleMessage", "ctap_hid/ctap_hid.go:HandleMessage", "ctap_hid/ctap_hid.go:sendResponse", "ctap_hid/channel.go:handleDataMessage"]}
{"id": "C105", "title": "Behind every answer a host reads there is the user's consent to it", "statement": "However everything interleaves, and whatever happened before the device was started: what hosts read on all channels together claims the user's consent to an action at most as often as the user was asked and agreed; every successful answer read on a channel is about the request sent on this channel, signed for it, with flags that are true of it, and with the consent it claims.", "quantifier": "every interleaving of reports, goroutines, operations and API calls, after any history with restarts", "why_tests_cant": "relates the bytes on the wire to the questions asked, over all schedules", "anchors": ["usb/usb_device.go:HandleMessage", "ctap_hid/channel.go:handleMessage", "fido_client/fido_client.go:DefaultFIDOClient", "usb/usb_device.go:HandleMessage", "ctap_hid/ctap_hid.go:HandleMessage", "ctap_hid/ctap_hid.go:sendResponse", "ctap_hid/channel.go:handleDataMessage", "ctap/ctap.go:handleMakeCredential", "ctap/ctap.go:handleGetAssertion", "u2f/u2f.go:handleU2FRegister", "u2f/u2f.go:handleU2FAuthenticate"]}
{"id": "C106", "title": "Reports that come in while a request is at work have to wait, CANCEL included", "statement": "While a request of a channel is with the authenticator no other report of this channel has any effect: not on the request, nor on what is sent, nor on the authenticator. In particular CTAPHID_CANCEL cannot stop a request; only the return of the authenticator ends it.", "quantifier": "every interleaving, every report on the channel and every request", "why_tests_cant": "that something never has an effect is about all schedules", "anchors": ["usb/usb_device.go:HandleMessage", "ctap_hid/channel.go:handleMessage", "fido_client/fido_client.go:DefaultFIDOClient", "usb/usb_device.go:HandleMessage", "ctap_hid/ctap_hid.go:HandleMessage", "ctap_hid/ctap_hid.go:sendResponse", "ctap_hid/channel.go:handleDataMessage", "ctap_hid/channel.go:handleMessage"]}
{"id": "C107", "title": "On macOS reports are dealt with one at a time, in the order sent, and none is lost that the driver has room for", "statement": "On macOS the process is given the reports of all hosts in the order in which they were sent, and looks at a report only when all those before it are done with. The driver keeps up to seventeen reports that the process has not yet been given; as long as no report is sent when seventeen are waiting, none is lost (an eighteenth makes it forget the oldest). So every request of a host that keeps to the CTAPHID specification, sent on a channel announced to it and split into any number of reports, is given to the authenticator in the order sent, and the host receives exactly the results, in this order. The device comes to rest, and then no report is left in the driver.", "quantifier": "every history of reports sent, notifications taken and steps inside the process, with any reports of at most 64 bytes", "why_tests_cant": "a report may come in between any two steps of the driver and the process, and any number may be waiting", "anchors": ["mac/mac.go:handleResponse", "mac/mac.go:receiveDataCallback", "mac/client.c:send_data", "mac/USBDriver/USBDrverLib/USBDriverLib.c:notify_frame", "mac/USBDriver/USBDriver/USBUserClient.cpp:newHIDFrame", "mac/USBDriver/USBDriver/USBUserClient.cpp:HandleGetFrame", "mac/USBDriver/USBDriver/USBUserClient.cpp:HandleSendFrame", "mac/USBDriver/USBDriver/USBDevice.cpp:setReport"]}
{"id": "C108", "title": "On macOS requests do not overlap: the device is the sequential one", "statement": "On macOS, while the embedding program does not call the API, every request is answered before the next one is given to the authenticator, on whatever channels they are: the state of the authenticator, what it saved, what the user was asked and all the answers hosts receive are those of a device that is given the requests one after the other, in the order in which the reports that completed them were sent. So the races of C99 to C101 cannot happen there.", "quantifier": "every history of reports, notifications and steps, after any history of operations that did not overlap", "why_tests_cant": "equality with a sequential execution has to hold for all schedules", "anchors": ["mac/mac.go:handleResponse", "mac/mac.go:receiveDataCallback", "mac/client.c:send_data", "mac/USBDriver/USBDrverLib/USBDriverLib.c:notify_frame", "mac/USBDriver/USBDriver/USBUserClient.cpp:newHIDFrame", "mac/USBDriver/USBDriver/USBUserClient.cpp:HandleGetFrame", "mac/USBDriver/USBDriver/USBUserClient.cpp:HandleSendFrame", "mac/USBDriver/USBDriver/USBDevice.cpp:setReport", "ctap_hid/channel.go:handleMessage", "ctap/ctap.go:HandleMessage", "u2f/u2f.go:HandleMessage"]}
{"id": "C109", "title": "Credential ids are unique however requests overlap", "statement": "As long as the random source does not repeat itself, no two requests are answered with a new credential of the same id, and no two credentials on the device have the same id, however requests and calls of the API overlap and however often the process is ended, at any moment, and started again on what it has saved.", "quantifier": "every interleaving of requests and calls, every restart, for as long as random draws differ", "why_tests_cant": "a credential is drawn, put on the list and saved in separate steps with steps of other requests between them", "anchors": ["usb/usb_device.go:HandleMessage", "ctap_hid/channel.go:handleMessage", "fido_client/fido_client.go:DefaultFIDOClient", "identities/identity_vault.go:NewIdentity", "identities/identity_vault.go:Import"]}
{"id": "C110", "title": "Keys, nonces and salts are used once", "statement": "As long as the random source does not repeat itself: no two requests are answered with a new credential or a U2F registration of the same public key; no two registrations have key handles sealed under the same nonce (so the handles differ); and whenever what is saved has changed it has been encrypted with a salt, a data key and nonces that were not used for anything saved before. This holds however requests and calls of the API overlap and however often the process is ended, at any moment, and started again on what it has saved.", "quantifier": "every interleaving of requests and calls, every restart, for as long as random draws differ", "why_tests_cant": "reuse of a nonce under the same key shows in no single answer, and would depend on the schedule", "anchors": ["usb/usb_device.go:HandleMessage", "ctap_hid/channel.go:handleMessage", "fido_client/fido_client.go:DefaultFIDOClient", "crypto/crypto.go:Encrypt", "identities/saved_state.go:EncryptWithPassphrase", "u2f/u2f.go:sealKeyHandle", "u2f/u2f.go:handleU2FRegister", "identities/identity_vault.go:NewIdentity", "fido_client/fido_client.go:NewPrivateKey"]}
{"id": "C111", "title": "Channels are created by one goroutine at a time; only on macOS is nothing else using the table of channels then", "statement": "However the goroutines that handle reports take their steps, no two of them create channels at the same moment. Over USB/IP nothing keeps other goroutines from looking up their channels at that moment: whenever a channel is about to be created, any report that comes in is enough for it (a concurrent read and write of a Go map, for which the Go runtime may end the process). On macOS this cannot happen, whatever reports are sent and whether or not the embedding program calls the API; and while it does not, at most one operation is at work in the authenticator.", "quantifier": "every interleaving of any number of goroutines, with any reports of at most 64 bytes", "why_tests_cant": "the race detector sees only the schedules that happen", "anchors": ["usb/usb_device.go:HandleMessage", "ctap_hid/channel.go:handleMessage", "fido_client/fido_client.go:DefaultFIDOClient", "usb/usb_device.go:HandleMessage", "ctap_hid/ctap_hid.go:HandleMessage", "ctap_hid/ctap_hid.go:sendResponse", "ctap_hid/channel.go:handleDataMessage", "ctap_hid/ctap_hid.go:newChannel", "mac/mac.go:handleResponse", "mac/mac.go:receiveDataCallback", "mac/client.c:send_data", "mac/USBDriver/USBDrverLib/USBDriverLib.c:notify_frame", "mac/USBDriver/USBDriver/USBUserClient.cpp:newHIDFrame", "mac/USBDriver/USBDriver/USBUserClient.cpp:HandleGetFrame", "mac/USBDriver/USBDriver/USBUserClient.cpp:HandleSendFrame", "mac/USBDriver/USBDriver/USBDevice.cpp:setReport"]}
{"id": "C112", "title": "A USB/IP client gets its own answers, in order, whatever takes place at the same time", "statement": "However the command loop of the server, the goroutines that handle reports, the authenticator, the embedding program, the sending of reports and the timers take their steps: a goroutine is started for every report the client hands over, in this order; the client receives every packet the device sends once and in order, with reports of zeros in between, and while it waits for a report none is kept from it; on every channel the answers it reads are the results of its own requests, in order; requests of one report each on a channel it was told of are all given to the authenticator exactly once and answered, and so, in the order sent, are requests of any length if each report is read when those before it on the channel have been dealt with; no answer claims a consent the user did not give. There is no deadlock, and without new commands, calls of the API and keepalives the work ends.", "quantifier": "every session of USB/IP commands with reports of at most 64 bytes, and every interleaving of all steps", "why_tests_cant": "the number of interleavings of command loop, goroutines, authenticator, sender and timers has no bound", "anchors": ["usb/usb_device.go:HandleMessage", "ctap_hid/channel.go:handleMessage", "fido_client/fido_client.go:DefaultFIDOClient", "usb/usb_device.go:HandleMessage", "ctap_hid/channel.go:handleMessage", "fido_client/fido_client.go:DefaultFIDOClient", "usb/usb_device.go:HandleMessage", "ctap_hid/ctap_hid.go:HandleMessage", "ctap_hid/ctap_hid.go:sendResponse", "ctap_hid/channel.go:handleDataMessage", "usbip/usbip_server.go:handleCommands", "usb/usb_device.go:HandleMessage", "usb/usb_device.go:handleResponse", "util/request_buffer.go:Respond"]}
{"id": "C113", "title": "A host finds a FIDO device", "statement": "From the answers to its requests for descriptors, in every state of the device and whatever language and length it asks with, a host that reads them as USB and HID say finds a device with one configuration and one interface, of class HID, with an interrupt endpoint to the host and one from the host, both with packets of 64 bytes; these, and no others besides endpoint 0, are the endpoints the device serves, the one from the host as the way reports come in. The report descriptor, over USB/IP and on macOS, announces a FIDO device (usage page 0xF1D0, usage 1) with input and output reports of 64 bytes. Every text a descriptor names can be read, and texts of any characters are encoded so that they can be. What the server says of the device agrees with the descriptors. (Except for the release number, 0 and 1; the number of the configuration is 0, which stands for 'not configured'; and the logical maximum of the fields, a signed number by the HID specification, is -1, below the minimum 0.)", "quantifier": "every request for a descriptor, every state, every endpoint number, setup packet and data, every text", "why_tests_cant": "hosts ask in any order with any lengths; a parser of another host may read what a test's parser does not", "anchors": ["usb/usb_device.go:getDescriptor", "usb/usb_device.go:getHIDReport", "usb/usb_device.go:HandleMessage", "usb/usb_device.go:DeviceSummary", "usb/usb_device.go:getStringDescriptor", "util/util.go:Utf16encode", "mac/USBDriver/USBDriver/USBDevice.cpp:newReportDescriptor"]}
{"id": "C114", "title": "What GetInfo announces is true", "statement": "In every state GetInfo announces the versions FIDO_2_0 and U2F_V2, keys that stay on the device (rk), user presence (up), a device that is not part of the platform, no user verification of its own, and PIN protocol 1 exactly if PINs are supported. The AAGUID it announces is the one in the authenticator data of every credential the device makes. A user is verified, and a ClientPIN request successful, only by a protocol announced in that state. A credential just made is found without being named. U2F_V2 is what the U2F part says when asked for its version. (Of FIDO_2_0 two commands are missing: authenticatorGetNextAssertion and authenticatorReset end the process.)", "quantifier": "every state, every request", "why_tests_cant": "the announcement and the behaviour it is about are in different requests and states", "anchors": ["ctap/ctap.go:handleGetInfo", "ctap/ctap.go:handleMakeCredential", "ctap/ctap.go:handleGetAssertion", "ctap/ctap.go:handleClientPIN", "ctap/ctap.go:makeAttestedCredentialData", "u2f/u2f.go:HandleMessage"]}
{"id": "C115", "title": "Wrong guesses tell nothing about the PIN but that they are wrong", "statement": "Take two devices with the same history, on which different PINs are then set. As long as nobody presents the PIN of either, no request, call of the API or restart makes a difference between them: all answers, the number of tries left, the questions put to the user and where the process ends are the same on both. So a PIN can only be found by presenting it (in plain terms: trying it), of which C54 bounds the number.", "quantifier": "every history before the PINs are set, all pairs of PINs, every sequence of requests, calls and restarts after it", "why_tests_cant": "an answer that depends on the PIN shows only in comparison with the device that has another PIN", "anchors": ["ctap/ctap.go:handleClientPIN", "ctap/ctap.go:handleSetPIN", "ctap/ctap.go:handleChangePIN", "ctap/ctap.go:handleGetPINToken", "ctap/ctap.go:handleMakeCredential", "fido_client/fido_client.go:exportData"]}
{"id": "C117", "title": "A PIN token is good until the process ends", "statement": "A PIN token a platform was given authorizes requests, as verified, until the process is started anew, whatever is requested or called in between; a process started later has another token (as long as the random source does not repeat itself). (In particular changing the PIN, by a platform or through the API, does not revoke the tokens given out under the old PIN, which CTAP 2 wants it to.)", "quantifier": "every history before the token is given out and every history between that and its use", "why_tests_cant": "the length of the histories has no bound", "anchors": ["ctap/ctap.go:handleMakeCredential", "ctap/ctap.go:handleGetPINToken", "ctap/ctap.go:handleChangePIN", "fido_client/fido_client.go:SetPIN", "fido_client/fido_client.go:NewDefaultClient"]}
{"id": "C116", "title": "Relying parties do not notice each other's credentials", "statement": "Take two running devices that are the same except for the credentials of relying parties other than A. In any history of requests and calls of the API without a restart and without a deletion, in which assertions are requested for A only (and credentials made for anybody, U2F and PINs used at will), all answers and all questions put to the user are the same, and so are A's credentials afterwards. So A cannot find out whether, where and under which names the user has other credentials. (After a restart it can: the relying party of the last credential is then given to all, C78.)", "quantifier": "all pairs of devices, every history of requests and calls", "why_tests_cant": "two devices have to be compared over every history; a test has one device", "anchors": ["identities/identity_vault.go:GetMatchingCredentialSources", "fido_client/fido_client.go:GetAssertionSource", "ctap/ctap.go:handleGetAssertion", "ctap/ctap.go:handleMakeCredential"]}
{"id": "C118", "title": "A running device and commands run beside it", "statement": "The demo commands that change the file with the credentials and the PIN (delete, pin enable, disable and set) may be run while the device is running from the same file. The running device does not notice: whatever other processes write to the file and whenever, its answers, its credentials and its PIN are the same as if they had not. With its next save the file is as if the other process had not written it: so an identity deleted meanwhile is back after a restart. Only if the device has saved nothing since, the file is as the other process left it.", "quantifier": "every history of requests, calls and writes of the file by other processes, with any content", "why_tests_cant": "the effect shows only after some later save or start, in any history", "anchors": ["cmd/demo/demo.go:deleteIdentity", "cmd/demo/demo.go:enablePIN", "cmd/demo/demo.go:createClient", "cmd/demo/server.go:SaveData", "fido_client/fido_client.go:loadData", "fido_client/fido_client.go:saveData"]}
{"id": "C119", "title": "A relying party that checks everything accepts what the device answers", "statement": "Take a relying party that follows WebAuthn: on registration it checks the format, the algorithm, its own hash, user presence (and user verification if it demands it), that the public key is well formed, that the signature over authenticator data and client data verifies under the key of the attestation certificate, that this is signed by the trusted certificate, and that the credential is new; on login it checks that it has registered the credential and had asked for it, its own hash, presence (and verification), the signature under the registered key and that the counter has gone up. Whatever was requested, called and restarted before, it accepts every successful answer to its registrations and every successful answer to its logins that names a credential it has registered (if it demands verification, this is for requests it sends with a PIN authorization while a PIN is set, and logins are those that do not waive presence). Without a restart a party that does not demand verification accepts every successful answer to its logins, and whoever has registered can log in until the credential is deleted, if the user approves. (After a restart neither holds: a party whose credential exists is told there is none, and another gets an answer with a credential it does not know, C78.)", "quantifier": "every history of requests, calls and restarts, of any relying parties; every relying party; every request", "why_tests_cant": "registration and login may be any number of requests and restarts apart; the checks involve what was remembered in between", "anchors": ["ctap/ctap.go:handleMakeCredential", "ctap/ctap.go:handleGetAssertion", "ctap/ctap.go:makeAuthData", "ctap/ctap.go:makeAttestedCredentialData", "fido_client/fido_client.go:CreateAttestationCertificiate", "identities/identity_vault.go:GetMatchingCredentialSources", "fido_client/fido_client.go:GetAssertionSource"]}
{"id": "C120", "title": "A U2F relying party that checks everything accepts what the device answers", "statement": "Take a U2F relying party that, on registration, checks that the answer is well formed, that the attestation certificate is signed by the trusted issuer and the signature verifies under the certificate's key, and that the handle is new; and on login that the handle is registered, the user was present, the signature verifies under the registered key and, if it looks at counters, that the counter has gone up. Whatever was requested, called and restarted before, it accepts every successful answer to a registration; and a running device answers every authentication request for a handle registered with the party, as soon as the user agrees, and the party accepts the answer. (A party that looks at counters only if before every restart something was saved after the last U2F authentication, a credential made or used or a PIN setting changed through the API: otherwise the device repeats counters, C67, and the party has to reject.)", "quantifier": "every history of requests, calls and restarts; every relying party; every request", "why_tests_cant": "registration and login may be any number of requests and restarts apart; the counter may be lost at any restart", "anchors": ["u2f/u2f.go:handleU2FRegister", "u2f/u2f.go:handleU2FAuthenticate", "u2f/u2f.go:openKeyHandle", "u2f/u2f.go:sealKeyHandle", "fido_client/fido_client.go:NewAuthenticationCounterId", "fido_client/fido_client.go:saveData", "fido_client/fido_client.go:CreateAttestationCertificiate"]}
{"id": "C121", "title": "The macOS driver uses its memory rightly, and what it loses", "statement": "Whatever memory the system hands out and whatever calls the driver for macOS gets, in any order (methods called by any process, with any arguments; reports from the host of at most 64 bytes; being stopped and closed at any time), it reads, writes and frees only memory that is allocated, its linked list of reports behaves as a queue (which C107 and C108 take for granted), its answers and what the host is sent are those of a driver with a plain queue, and the memory of others is as it was. At most 17 reports wait; when it is closed its list and nodes are freed. (Not so: each report it forgets and each still waiting when it is closed is never freed, nor is a completion or a device it was given before; so a host can make it lose any amount of memory. The copy the Go side makes of each packet is never freed either. The method StopDevice follows a NULL pointer. A report or a packet longer than 64 bytes is copied over the end of a frame. If there is no memory for a report it writes through NULL.)", "quantifier": "every sequence of calls and reports, every behaviour of the memory allocator", "why_tests_cant": "a wrong pointer shows only for some order of calls and some placement in memory; leaks show only after long histories", "anchors": ["mac/USBDriver/USBDriver/util.cpp:linked_list_push", "mac/USBDriver/USBDriver/util.cpp:linked_list_pop_front", "mac/USBDriver/USBDriver/util.cpp:linked_list_free", "mac/USBDriver/USBDriver/USBUserClient.cpp:newHIDFrame", "mac/USBDriver/USBDriver/USBUserClient.cpp:HandleGetFrame", "mac/USBDriver/USBDriver/USBUserClient.cpp:StaticHandleStopDevice", "mac/client.c:send_data", "mac/mac.go:handleResponse"]}
{"id": "C122", "title": "What is in attestation certificates", "statement": "Whatever was requested, called and restarted before, the certificate in the answer to every registration that succeeds, by CTAP2 or U2F, meets the requirements of WebAuthn on packed attestation: the subject has a country of two letters, an organization, a common name and the unit 'Authenticator Attestation', and the certificate is not that of an authority. It is valid from a moment during the registration for ten years, and issued in the name of the authority the device was configured with. With an authority as the demo makes it (which always succeeds, and is accepted under itself), whoever trusts this authority accepts the certificate by the rules for certification paths while both are valid. (Not so: serial numbers, which shall be positive and unique for each issuer. All are 0, that of the authority too.)", "quantifier": "every history of requests, calls and restarts; every registration; every point of time; every authority", "why_tests_cant": "a certificate is made anew for each registration; its contents depend on the time and on what the device kept of its authority", "anchors": ["identities/attestation.go:CreateSelfSignedAttestationCertificate", "identities/attestation.go:CreateSelfSignedCA", "identities/attestation.go:CreateCAPrivateKey", "fido_client/fido_client.go:CreateAttestationCertificiate"]}
{"id": "C123", "title": "The authority of the demo, from start to start", "statement": "The demo makes itself a certificate authority each time it is started. Once it has saved anything, it has one authority for ever: whatever is requested and called and however often it crashes and is started, whoever trusts that authority accepts the certificate of every registration that succeeds; in general what is saved wins over all arguments a client is created with. The demo can always be started again. (Before anything is saved, and U2F registrations save nothing, each start has another authority, and who trusts a later one does not accept the certificates of an earlier one. Nor are U2F keys bound to a device: a key registered with one demo can be used with any other, as they all seal handles with the same key.)", "quantifier": "every history of requests, calls, crashes and starts of the demo; pairs of demos with any histories", "why_tests_cant": "what is kept shows only some starts later, in any history", "anchors": ["cmd/demo/demo.go:createClient", "fido_client/fido_client.go:NewDefaultClient", "fido_client/fido_client.go:importData", "identities/attestation.go:CreateSelfSignedCA", "crypto/crypto.go:Encrypt"]}
{"id": "C124", "title": "Which credential answers a login", "statement": "From the requests and answers alone one can keep a list of credentials (relying party, id) that tells at any time which credential a login will use: a registration puts its credential at the end; a deletion takes one out and puts the last in its place; at a start all are given to the relying party of the last (C78). Over every history with restarts and crashes a login that succeeds names the first credential of the list that is for the relying party and in its allow list, if it sent one; without such a credential the answer is 'no credentials'; with one, an approved login with a right PIN succeeds; so each credential of the list can be used by naming it. As long as nothing is deleted and the program is not restarted, a login that names no credential is answered with the one made first. (So registering an account again does not replace it, as CTAP 2 demands of resident keys: the login still uses the old one. And deleting a credential of one relying party can change with which account a login at another is made.)", "quantifier": "every history of requests, calls, restarts and crashes; every login", "why_tests_cant": "which credential is first depends on all registrations, deletions and starts before", "anchors": ["identities/identity_vault.go:GetMatchingCredentialSources", "identities/identity_vault.go:DeleteIdentity", "identities/identity_vault.go:NewIdentity", "identities/identity_vault.go:Import", "fido_client/fido_client.go:GetAssertionSource", "ctap/ctap.go:handleGetAssertion"]}
{"id": "C125", "title": "Saved data cannot be forged, only put back", "statement": "Others who do not know the passphrase write into the file with the credentials what they like and whenever they like, while the device is running or not: earlier saved data, pieces of several earlier saved data put together, anything else they can make. Then a start of the program fails, or the device is as it was right after some request at which it saved its data, with all keys, credentials, counters and PIN of that moment, and nothing mixed from several moments. A login that succeeds is signed with the key of a credential that the device announced in answer to a registration; so nobody can plant a credential. (But any earlier saved data are accepted: a start brings back the device as it was then. So deleted credentials come back, an earlier PIN or the time without a PIN as well, and signature counters are repeated.)", "quantifier": "every history of requests, calls, restarts, crashes and writes of others, at any time, with any data not made with the keys", "why_tests_cant": "the data written are chosen by an adversary, at any point of any history", "anchors": ["identities/saved_state.go:EncryptWithPassphrase", "identities/saved_state.go:DecryptWithPassphrase", "identities/saved_state.go:DecryptFIDOState", "fido_client/fido_client.go:loadData", "fido_client/fido_client.go:importData", "fido_client/fido_client.go:saveData", "cmd/demo/server.go:RetrieveData", "crypto/crypto.go:Decrypt"]}
{"id": "C126", "title": "What the log shows of secrets", "statement": "Two devices that answer the same messages in the same way log the same at all levels but Unsafe (memory addresses aside), whatever keys, PINs, tokens and saved data they have, over every history with restarts: so the log tells no more than the messages and the answers. Left out are requests for a PIN token, setting a PIN by CTAP2, registrations by U2F that are not completed, and authentications by U2F whose key handle is refused. (There the log at level Debug, which the demo shows, does give away secrets: each request for a token that gets as far as comparing PINs, right or wrong, and each setting of a PIN by CTAP2, logs the stored hash of the PIN, and whoever has the hash gets the PIN token without the PIN; an authentication by U2F for one application with a key handle of another logs the private key of the other, without asking the user.)", "quantifier": "every pair of devices, every history of requests, calls and restarts", "why_tests_cant": "that something is not told is a statement on pairs of runs, for all secrets", "anchors": ["ctap/ctap.go:HandleMessage", "ctap/ctap.go:handleGetPINToken", "ctap/ctap.go:handleSetPIN", "ctap/ctap.go:handleGetAssertion", "u2f/u2f.go:handleU2FAuthenticate", "u2f/u2f.go:handleU2FRegister", "u2f/u2f.go:HandleMessage", "util/log.go:NewLogger", "cmd/demo/demo.go:createClient"]}
{"id": "C127", "title": "What the device keeps in memory", "statement": "Whatever reports of at most 64 bytes come in and in whatever order the goroutines run, each channel keeps at most 7609 bytes of a request, and there are at most as many channels as reports came in, and the broadcast channel. With an output set, the log keeps in memory just the lines of the levels that are not shown, and nothing that is logged is lost. (So what is kept has no bound: no channel is ever given back, and for every n up to the number of channel numbers there is a host that has n channels after n reports; and at level Debug, as in the demo, every line of level Trace, one for each USB/IP command, stays in memory for as long as the process runs.)", "quantifier": "every list of reports, every schedule of the goroutines; every history of calls of the log", "why_tests_cant": "that memory is bounded, or not, is a statement on all histories, of any length", "anchors": ["ctap_hid/transaction.go:addMessage", "ctap_hid/ctap_hid.go:newChannel", "ctap_hid/ctap_hid.go:HandleMessage", "util/log.go:Write", "util/log.go:SetLogLevel", "usbip/usbip_server.go:handle"]}
{"id": "C128", "title": "A host that behaves never ends the process", "statement": "A host whose requests are well formed (known commands; registrations with a relying party and a user; PIN requests with a real public key and whole blocks; U2F messages well framed, with key handles the device issued or bytes that are no handle at all), and that between two starts sends at most seven requests that try a PIN, never makes the process end, in whatever order and overlap its requests on any channels, the calls of the embedding program and restarts take place; and none of its requests is lost: each is at work or has its answer. (Seven cannot be eight: eight requests for the PIN token that overlap, all with the right PIN, can use up the eight attempts, and then asking for the number left ends the process.)", "quantifier": "every schedule of any number of overlapping requests, calls and restarts", "why_tests_cant": "that no interleaving panics is a statement on all of them; each single request is fine", "anchors": ["ctap/ctap.go:HandleMessage", "ctap/ctap.go:handleGetPINToken", "ctap/ctap.go:handleChangePIN", "u2f/u2f.go:HandleMessage", "fido_client/fido_client.go:PINRetries", "fido_client/fido_client.go:SetPINRetries", "usb/usb_device.go:HandleMessage"]}
{"id": "C129", "title": "Hosts that behave are answered", "statement": "Any number of hosts that send reports of 64 bytes with commands the device knows (INIT, PING and CANCEL on the broadcast channel; MSG, CBOR, PING and CANCEL on any other) never make the HID server panic, in whatever order the reports come in and the goroutines run, be they parts of requests or not. If what can be made of the reports is harmless as in C128, with at most seven attempts at the PIN since the start, the process never ends, and whenever the device has come to rest every request has been answered; on a channel announced before its first report, on which each report is sent when those before it have been dealt with, the host has been sent the results of all its requests in order. (Any other command, in a report of one message, ends the process: also INIT on the host's own channel, with which the CTAPHID specification has hosts begin afresh.)", "quantifier": "every list of reports on any channels, every schedule of their goroutines, of the authenticator's operations and of the embedding program's calls", "why_tests_cant": "that some schedule of some mixture of reports panics or leaves a request without an answer cannot be excluded by trying some of them", "anchors": ["ctap_hid/ctap_hid.go:HandleMessage", "ctap_hid/channel.go:handleMessage", "ctap_hid/channel.go:handleBroadcastMessage", "ctap_hid/channel.go:handleDataMessage", "ctap_hid/transaction.go:newCTAPHIDTransaction", "ctap_hid/transaction.go:addMessage", "usb/usb_device.go:HandleMessage", "ctap/ctap.go:HandleMessage", "u2f/u2f.go:HandleMessage"]}
{"id": "C130", "title": "Hosts that behave are answered over USB/IP and on macOS", "statement": "A USB/IP client, or a host on macOS, whose reports are ones the device knows (C129) and make only harmless requests, with at most seven attempts at the PIN since the start, never ends the process: not by any order or pace of its commands, nor by withdrawing transfers or leaving them unread. Whatever has happened, the device can come to rest with nobody doing anything. When it has, then on a channel announced before its first report the client has the results of all its requests in order: over USB/IP if it has fetched what was sent, and its reports were read each after those before it had been dealt with; on macOS at whatever pace, as long as the driver had room for each report.", "quantifier": "every list of commands of the client, every interleaving of the connection's reads and writes with the device's goroutines, every list of reports and notices on macOS", "why_tests_cant": "that some timing of a driver's commands ends the process or loses an answer cannot be excluded by trying some timings", "anchors": ["usbip/usbip_server.go:handleCommands", "usbip/usbip_server.go:handleCommandSubmit", "usb/usb_device.go:HandleMessage", "usb/usb_device.go:handleControlMessage", "mac/mac.go:receiveDataCallback", "ctap_hid/ctap_hid.go:HandleMessage", "ctap/ctap.go:HandleMessage", "u2f/u2f.go:HandleMessage"]}
{"id": "C131", "title": "What a host is told is what the authenticator answers, and relying parties accept it", "statement": "Whatever was done before, one request at a time, a single host that then gets a channel from the device and sends requests on it, in reports, on macOS or over USB/IP, reads from the device's reports exactly the answers that the authenticator gives to these requests one after the other in the state it was in, and leaves it in the state after them: the transport, its packets, its goroutines and its timing add nothing and lose nothing. (On macOS at any pace, as long as the driver has room for each report; over USB/IP if the server reads each report when those before it have been dealt with, and the client fetches what is sent. The embedding program makes no calls meanwhile, and the device has come to rest.) Therefore a WebAuthn relying party that checks all it should, given every successful answer since the process started, those before the host came included, accepts each registration, and each login that asked for the user's presence; and a U2F relying party accepts each registration, and each login with a key it registered; for U2F the process may have been restarted before the host came, provided, if the relying party checks counters, that something was saved after the last authentication.", "quantifier": "every history before, every list of requests, every schedule of the transport and of the device's goroutines, every relying party that does not demand user verification", "why_tests_cant": "what a host reads depends on timing, fragmentation and the whole history; that a relying party accepts it depends on all answers before", "anchors": ["usb/usb_device.go:HandleMessage", "usbip/usbip_server.go:handleCommandSubmit", "mac/mac.go:receiveDataCallback", "ctap_hid/ctap_hid.go:HandleMessage", "ctap_hid/channel.go:handleDataMessage", "ctap/ctap.go:HandleMessage", "ctap/ctap.go:handleMakeCredential", "ctap/ctap.go:handleGetAssertion", "u2f/u2f.go:HandleMessage"]}
{"id": "C132", "title": "Who registered can log in, from a host", "statement": "A relying party has accepted a registration, made by a host over the transport or by whatever was done in the process before, and the credential has not been deleted. Then a lone host (C131), on macOS or over USB/IP, that asks for a login with this credential, after any other requests, in any reports and at any timing of C131, meeting the PIN rules and with a user who agrees, reads an answer of success from the device's reports, and the relying party accepts it for this credential. Likewise with U2F, where the user need not be asked if the request says so, and the relying party may check the counter; there the process may also have been restarted between registration and login (with the proviso of C131).", "quantifier": "every history before, every list of requests of the host, every schedule of transport and goroutines", "why_tests_cant": "that the login succeeds depends on the whole history since the registration and on every packet and schedule between host and authenticator", "anchors": ["usb/usb_device.go:HandleMessage", "usbip/usbip_server.go:handleCommandSubmit", "mac/mac.go:receiveDataCallback", "ctap_hid/ctap_hid.go:HandleMessage", "ctap/ctap.go:handleMakeCredential", "ctap/ctap.go:handleGetAssertion", "u2f/u2f.go:handleU2FRegister", "u2f/u2f.go:handleU2FAuthenticate", "identities/identity_vault.go:GetMatchingCredentialSources"]}
{"id": "C133", "title": "The demo attaches the device it serves, and nobody else gets it", "statement": "Over USB/IP at most one client is ever given the device in the life of a process, whatever connections come in and whatever is sent over them: to everybody before it at most that there is no such device is said, and nobody after it is accepted. On Linux and Windows the demo starts one command, which connects to this machine and asks for the bus id under which the server exports the device; in whatever order the goroutines go on and whoever else connects, if the server was listening the command is given the device, with an answer it is content with, unless the server stays with a client that connected earlier. The server goes on from clients that are not on this machine's loopback addresses, and from those that asked for nothing or for other devices and closed. (It does not go on from a client that says nothing and does not close, nor from one that was given the device, even when it has closed: the command then waits for ever. If the server was not listening after the half second, the command fails and is not started again.) However the command ends, the server goes on; the demo dies only when it cannot listen. On macOS nobody is listened to and no command is started.", "quantifier": "every list of connections with any contents, every order of the demo's goroutines and of the clients, every network", "why_tests_cant": "who connects first and what they send is up to others; that a second client never gets in is a statement on all of them", "anchors": ["usbip/usbip_server.go:Start", "usbip/usbip_server.go:handle", "usbip/usbip_server.go:getDevice", "usb/usb_device.go:BusID", "usb/usb_device.go:DeviceSummary", "cmd/demo/server.go:runServer", "cmd/demo/exec_linux.go:platformUSBIPExec", "cmd/demo/exec_windows.go:platformUSBIPExec", "cmd/demo/exec_macos.go:platformUSBIPExec"]}
{"id": "C134", "title": "The PIN is the one last set", "statement": "Whoever has seen every request, call and answer since the device was first started knows its PIN. If a PIN was set, by the program or by a setPIN or changePIN request answered with success, and none was set since, whatever else happened, restarts included, then, as long as PIN support is on and tries are left, a platform that agreed on a secret with the device gets the token for this PIN and for no other (PIN_INVALID; the PIN stands for the first 16 bytes of its SHA-256), can change the PIN with this one and with no other, and cannot set one anew (PIN_AUTH_INVALID). If none was ever set, no guess gets the token and one can be set. PIN support is as first configured until it is switched; the tries left are 8 after a start or a right PIN and one less after each wrong one. Without tries left an attempt, right or wrong, ends the process and changes nothing. GetInfo says whether a PIN was ever set while PIN support is on, and nothing of PINs otherwise. (The demo first starts with PIN support off; from then on it is as last switched, by whichever process.)", "quantifier": "every history of requests, calls, user's answers and restarts, every PIN and guess, every platform key", "why_tests_cant": "the state of the PIN is the outcome of the whole history, across saves and restarts", "anchors": ["ctap/ctap.go:handleClientPIN", "ctap/ctap.go:handleSetPIN", "ctap/ctap.go:handleChangePIN", "ctap/ctap.go:handleGetPINToken", "ctap/ctap.go:handleGetInfo", "fido_client/fido_client.go:SetPIN", "fido_client/fido_client.go:SetPINHash", "fido_client/fido_client.go:SetPINRetries", "fido_client/fido_client.go:EnablePIN", "fido_client/fido_client.go:DisablePIN", "fido_client/fido_client.go:loadData"]}
{"id": "C135", "title": "Who knows the PIN is verified, from a host", "statement": "A lone host as in C131, on macOS or over USB/IP, with any requests before, that has read the device's key for the key agreement and computed the secret from it, and then asks for a PIN token: with the PIN last set (C134) it reads an answer from the device's reports from which it decrypts a token, with another (of another hash) it reads PIN_INVALID; as long as PIN support is on and tries are left. With a token it has read, a host that asks for a registration, or for a login with a credential registered before, with a proof by this token over the client data hash, and whose user agrees, reads an answer of success that the relying party accepts, also one that demands user verification.", "quantifier": "every history before, every list of requests of the host, every PIN, platform key and client data hash, every schedule of transport and goroutines of C131", "why_tests_cant": "the token and the key agreement key that the host has read must be those the device still has after the whole conversation, in every schedule", "anchors": ["ctap/ctap.go:handleClientPIN", "ctap/ctap.go:handleGetKeyAgreement", "ctap/ctap.go:handleGetPINToken", "ctap/ctap.go:handleMakeCredential", "ctap/ctap.go:handleGetAssertion", "usb/usb_device.go:HandleMessage", "usbip/usbip_server.go:handleCommandSubmit", "mac/mac.go:receiveDataCallback", "ctap_hid/ctap_hid.go:HandleMessage"]}
{"id": "C136", "title": "Several hosts at once are served in one order", "statement": "Whatever was done before, one request at a time, let any number of programs use the device at once, on macOS or over USB/IP, each on a channel of its own, their reports interleaved in any way; some may break every rule of the protocol (at most 64 bytes a report), or send on channels they were not given. Then there is one order of all requests that reached the authenticator, none of them on the broadcast channel, that of the reports which completed them, such that the device answered as it does when asked this alone, one request after the other, and is in the state after them; and every well-behaved program reads exactly the answers to its own requests in this order, all of them. (Same conditions on the transport as C131.) A WebAuthn relying party that checks all it should and is shown all this in this order, from whichever program, accepts every successful registration and every successful login that asked for the user's presence; a U2F relying party likewise (with the proviso of C131).", "quantifier": "every history before, any number of programs, well-behaved or not, every interleaving of their reports, every schedule of transport and goroutines of C131, every relying party that does not demand user verification", "why_tests_cant": "the interleavings of the reports of several programs, with arbitrary reports of others among them, cannot be enumerated", "anchors": ["usb/usb_device.go:HandleMessage", "usbip/usbip_server.go:handleCommandSubmit", "mac/mac.go:receiveDataCallback", "ctap_hid/ctap_hid.go:HandleMessage", "ctap_hid/channel.go:handleDataMessage", "ctap/ctap.go:HandleMessage", "u2f/u2f.go:HandleMessage"]}
{"id": "C137", "title": "Who registered through one program can log in through another", "statement": "Any number of programs use the device at once, as in C136. In the order in which they were served: if a relying party has accepted a registration, whichever program it came through, or in what was done before, and the credential has not been deleted, a login request for it, from any of the programs, that meets the PIN rules and whose user agrees is answered with success, and the relying party accepts the answer; likewise with U2F (with the provisos of C132). A program that was told the device's key and asks for a PIN token with the PIN last set, by whichever program, is told a token, and PIN_INVALID with any other PIN, as long as PIN support is on and tries are left. With a token it was told, whatever other programs did since, its registrations and logins with a proof by this token are answered with success and accepted, also by relying parties that demand user verification.", "quantifier": "every history before, any number of programs, well-behaved or not, every interleaving of their reports, every schedule of transport and goroutines of C131, every request in the order", "why_tests_cant": "what other programs do between a registration and a login, or between a token and its use, in every interleaving, cannot be enumerated", "anchors": ["ctap/ctap.go:handleMakeCredential", "ctap/ctap.go:handleGetAssertion", "ctap/ctap.go:handleClientPIN", "u2f/u2f.go:handleU2FAuthenticate", "ctap_hid/ctap_hid.go:HandleMessage", "usb/usb_device.go:HandleMessage", "usbip/usbip_server.go:handleCommandSubmit", "mac/mac.go:receiveDataCallback"]}
{"id": "C138", "title": "What a USB/IP client makes the server hold lasts no longer than its timers, and is bounded only by what is declared", "statement": "For a poll (CMD_SUBMIT on the endpoint of input reports) the server makes a buffer of the length the client declares and keeps it until the poll's one-second timer has fired. Whatever the client sends, no poll waits whose timer has fired, so once the timers have fired, which needs nothing of the client, nobody waits and none of these buffers is held; at any moment they hold at most 4294967295 bytes for every 48 bytes received. (No smaller bound holds: for every n, a client that sends 48\u00b7n bytes makes the server hold 4294967295\u00b7n bytes, until the timers fire. The length is not limited by the size of a report, and a poll that was answered or withdrawn is kept as long as one that waits.)", "quantifier": "every byte stream, well-formed or not, every way the network cuts it into pieces, every schedule of the command loop, the device's goroutines, sent reports and timers, every n", "why_tests_cant": "the buffers held depend on all commands of the last second and on what was answered meanwhile; no test sends every stream, and the worst case does not fit a test machine", "anchors": ["usbip/usbip_server.go:handleCommandSubmit", "usb/usb_device.go:HandleMessage", "usb/usb_device.go:RemoveWaitingRequest", "util/request_buffer.go:Request", "util/request_buffer.go:CancelRequest", "util/util.go:SetTimeout"]}
{"id": "C139", "title": "Several programs together get no more than one alone", "statement": "Any number of programs use the device at once, on macOS or over USB/IP (as in C136), each sending what it likes. In the one order in which they were served: between two right PINs at most 8 wrong ones were told to be wrong, whichever programs tried, and after 8 no program is told anything about a PIN; each assertion given to a program is signed with the key of a credential announced earlier, to whichever program, and not deleted since; of two assertions with one credential (and of two U2F authentications) the later has the higher counter, even if they went to different programs; each answer that claims the user's consent was given to a request during which the user was asked one question, of that kind, and agreed, so that an approval given for one program is not used for another; and with a PIN set and enabled, a credential is only made for a request that is signed with the device's token.", "quantifier": "every number of programs, all reports they send and all ways they are mixed, all schedules, everything done before", "why_tests_cant": "depends on how requests of different programs follow each other, and on all that was done before", "anchors": ["mac/mac.go:receiveDataCallback", "ctap_hid/ctap_hid.go:HandleMessage", "ctap_hid/channel.go:handleDataMessage", "ctap/ctap.go:HandleMessage", "u2f/u2f.go:HandleMessage", "fido_client/fido_client.go:ApproveAccountLogin"]}
{"id": "C140", "title": "Saved data with keys in the older format are read and converted", "statement": "Saved data may hold private keys as older versions wrote them (P-256 keys in DER) or as this one does (COSE keys), also some of each. The program starts with them, and the device has all keys, credentials with id, type and counter, PIN and certificate that were saved. What it saves then has all keys in the new format, and a start with that gives the same device. If all credentials are of one relying party and have different ids, a login that allows one of them succeeds, and its signature verifies with the public key of the key that was saved for it. The vault's Import keeps what the vault has, adds the credentials up to the first unreadable key and returns an error exactly if there is one. (But the client ignores this error: the program starts without the credential that has it and without all credentials saved after it, and the next time the device saves its data they are gone, also those with readable keys.)", "quantifier": "every saved state, with any number of credentials and any mixture of formats; every position of the first unreadable key", "why_tests_cant": "all states and mixtures; needs files of an older version", "anchors": ["identities/identity_vault.go:Import", "identities/identity_vault.go:Export", "fido_client/fido_client.go:importData", "fido_client/fido_client.go:exportData", "fido_client/fido_client.go:saveData", "cose/cose.go:UnmarshalCOSEPrivateKey", "cose/cose.go:MarshalCOSEPrivateKey"]}
{"id": "C141", "title": "A report that does not fit is answered with one error that says why", "statement": "On an open channel with no request under way, a report that starts none (a continuation) is answered with exactly one CTAPHID_ERROR report on that channel, with ERR_INVALID_CMD. While a request is under way, with however many of its continuation reports received, every report on the channel other than the next continuation and CANCEL (a wrong sequence number, or the start of another request) is answered with exactly one CTAPHID_ERROR report with ERR_INVALID_SEQ. In both cases nothing is acted on, nothing above changes, the other channels are as before and this one is free for the next request.", "quantifier": "every state of the device, channel, request, number of continuation reports received and report that does not fit", "why_tests_cant": "all states, lengths and positions", "anchors": ["ctap_hid/transaction.go:newCTAPHIDTransaction", "ctap_hid/transaction.go:addMessage", "ctap_hid/channel.go:handleMessage", "ctap_hid/ctap_hid.go:sendError"]}
