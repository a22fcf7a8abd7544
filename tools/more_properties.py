# Properties added as the model grew. Executed by gen_properties.py.
p("C74", "HID reports reach the FIDO layer exactly once and unchanged",
  "For every stream of USB/IP commands to the imported device, the reports handed to the FIDO layer are exactly the data of the transfers on the interrupt OUT endpoint, each once, byte for byte, started in the order the host sent them; each such transfer is acknowledged at once with its full length.",
  "every finite sequence of well-formed SUBMIT and UNLINK commands and every device state",
  "unbounded command sequences and data; composition of the USB/IP and USB layers",
  ["usbip/usbip_server.go:handleCommandSubmit", "usb/usb_device.go:HandleMessage"])
p("C75", "Exactly the supported control requests are answered",
  "A control transfer is answered if and only if it is, to the device, GET_DESCRIPTOR of the device, the configuration or strings 0-5, SET_CONFIGURATION or GET_STATUS, or, to the interface, SET_IDLE, SET_PROTOCOL or GET_DESCRIPTOR of the report descriptor; in every other case the host gets no reply at all. No control request changes the device.",
  "all 2^64 setup packets and every device state",
  "the space of setup packets cannot be enumerated",
  ["usb/usb_device.go:handleControlMessage", "usb/usb_device.go:handleDeviceRequest", "usb/usb_device.go:handleInterfaceRequest", "usb/usb_device.go:getDescriptor"])
p("C76", "A valid creation request succeeds",
  "On a healthy device that can attest, a MakeCredential request offering ES256, with relying party and user in valid UTF-8, that meets the PIN requirement is answered with success as soon as the user agrees.",
  "every such request, device state and random draw",
  "success must hold for every vault content and every request, including the saving step",
  ["ctap/ctap.go:handleMakeCredential", "fido_client/fido_client.go:saveData"])
p("C77", "A valid assertion request succeeds",
  "On a healthy device with a matching credential, a GetAssertion request that meets the PIN requirement is answered with success as soon as the user agrees (or at once with up=false).",
  "every such request, device state and random draw",
  "success must hold for every vault content and every request, including the saving step",
  ["ctap/ctap.go:handleGetAssertion", "fido_client/fido_client.go:saveData"])
p("C78", "After a restart a credential still belongs to its relying party",
  "After any history and a restart, a credential can be used by the relying party it was created for, and by no other. (False: after a restart all credentials belong to the relying party of the one stored last; that relying party can use every credential, and the others get NO_CREDENTIALS.)",
  "every history of CTAP and U2F messages, API calls and restarts, every request after the restart",
  "unbounded histories; needs two relying parties, a restart and then a request",
  ["identities/identity_vault.go:Import", "fido_client/fido_client.go:importData", "ctap/ctap.go:handleGetAssertion"])
p("C79", "The demo's login question tells what is approved",
  "Two different pairs of relying party and user never lead to the same login question. (False: names are quoted but quotes in them are not escaped. True when relying party names contain no quote.)",
  "all relying party and user names",
  "all strings",
  ["cmd/demo/server.go:ApproveClientAction"])
p("C80", "Each line answers one of the demo's questions",
  "The n-th question is answered by the n-th line of input, provided each read from the terminal returns one line. (Without the proviso false: every question makes a new buffered reader, and what it has read beyond its line is lost; a later yes can answer a question that was answered with no.)",
  "every sequence of lines and every division of the input into reads",
  "depends on how reads divide the input",
  ["cmd/demo/server.go:prompt"])
p("C81", "The PIN set with the demo is the PIN typed",
  "After `demo pin set --pin P` succeeds and the device is started with PINs enabled, a platform that is given P gets the PIN token. (Proved for 4 to 18 digits without leading zero, after every history. False with a leading zero: 012345 is read as an octal number, and no PIN with a leading zero can ever be set.)",
  "every history and every PIN",
  "all numerals, composed with saving, restarting and the PIN protocol",
  ["cmd/demo/demo.go:setPIN", "fido_client/fido_client.go:SetPIN", "ctap/ctap.go:handleGetPINToken"])
p("C82", "demo list shows every credential",
  "After any history `demo list` starts, does not crash and prints one line per credential, in order, with the beginning of its id and the names of user and relying party.",
  "every history of CTAP and U2F messages, API calls and restarts",
  "unbounded histories; the code dereferences pointers and slices ids without checks",
  ["cmd/demo/demo.go:listIdentities", "fido_client/fido_client.go:Identities"])
p("C83", "Every polled transfer is answered once or withdrawn, never both",
  "When the client unlinks a transfer, the server answers at once, saying 'withdrawn' just in case the transfer is an interrupt IN transfer it has read and neither completed nor withdrawn. A transfer asking for a report is completed or withdrawn, never both and neither twice; every other command is answered at most once; a transfer handing over a report and an unlink command are answered exactly once as soon as they are read; there are no other replies.",
  "every session (any finite sequence of submits and unlinks with distinct sequence numbers) and every schedule of reading, goroutines, deliveries and time-outs",
  "unlinks race with completions; every interleaving of every session",
  ["usbip/usbip_server.go:handleCommands", "usb/usb_device.go:RemoveWaitingRequest", "util/request_buffer.go:CancelRequest", "util/request_buffer.go:Request"])
p("C84", "The host receives the reports sent, in order",
  "In every session and schedule the reports the client receives on a channel are those the FIDO layer sent on it, in order, unchanged, without loss or duplication, apart from those still queued in the device. (On all channels together the same, except that a transfer not answered within a second is completed with a report of 64 zero bytes nobody sent; it is on channel 0.)",
  "every session, schedule, authenticator and time-out",
  "unbounded sessions and interleavings",
  ["usb/usb_device.go:HandleMessage", "util/request_buffer.go:Respond", "ctap_hid/ctap_hid.go:sendResponsePackets"])
p("C85", "A request over USB/IP is answered",
  "When a client, after any earlier traffic, hands over the reports of a CTAP2 or U2F request on an allocated idle channel, and the goroutines handling the reports run in the order they were started, then the authenticator is run exactly once on exactly that message, and the client receives on that channel keep-alives (none for U2F) and then exactly the answer. (Without the condition on goroutines false: each report has a goroutine of its own, and when two change places the client gets an error and the authenticator is not asked.)",
  "every earlier traffic, request, answer of at most 7609 bytes, division into reads and schedule of polls, deliveries and time-outs",
  "composition of four layers over every interleaving",
  ["usbip/usbip_server.go:handleCommands", "usb/usb_device.go:HandleMessage", "ctap_hid/ctap_hid.go:HandleMessage"])
p("C86", "Over USB/IP clients see the authenticator and nothing else",
  "For every session and schedule with reports of at most 64 bytes there is a history of CTAP2 and U2F requests such that the authenticator is in the state after exactly this history; each request is carried by reports of its own channel, no report serving two; and on each channel the client receives exactly the answers to its own requests, in order and unchanged, apart from what is still queued. So everything proved about histories holds for clients on the USB/IP socket.",
  "every session, schedule, device state and authenticator environment; answers of 1 to 7609 bytes",
  "a refinement of the whole program by the authenticator: all histories, all interleavings",
  ["virtual_fido.go:Start", "usbip/usbip_server.go:handleCommands", "usb/usb_device.go:HandleMessage", "ctap_hid/ctap_hid.go:HandleMessage", "ctap/ctap.go:HandleMessage", "u2f/u2f.go:HandleMessage"])
p("C87", "The outcome of every CTAP2 request",
  "After any history, every CTAP2 request, whatever its bytes, has exactly the outcome (success, a particular error status alone, or the end of the process) that a decision table gives for it: which of unsupported algorithm, wrong or missing PIN proof, missing relying party, refusal, no credential, blocked or wrong PIN, bad parameters, unknown subcommand or command comes first.",
  "every history of CTAP and U2F messages, API calls and restarts of a device that can attest, and every request",
  "the order of checks matters for every combination of conditions",
  ["ctap/ctap.go:HandleMessage", "ctap/ctap.go:handleMakeCredential", "ctap/ctap.go:handleGetAssertion", "ctap/ctap.go:handleClientPIN"])
p("C88", "The outcome of every U2F request",
  "After any history, every U2F request, whatever its bytes, has exactly the outcome (success, a particular status word alone, or the end of the process) that a decision table gives for it, from the framing of the request and the state of the key handle to the control byte and the user's decision.",
  "every history of CTAP and U2F messages, API calls and restarts of a device that can attest, and every request",
  "all byte strings, including truncated requests, which are partly padded with zeros and partly fatal",
  ["u2f/u2f.go:HandleMessage", "u2f/u2f.go:decodeU2FMessage", "u2f/u2f.go:handleU2FRegister", "u2f/u2f.go:handleU2FAuthenticate"])
p("C89", "The device holds exactly the credentials announced and not deleted",
  "After any history, with restarts and crashes, the credentials the device lists are exactly those announced by its successful answers to MakeCredential and not deleted since, each once, with the ids and public keys announced. (Random numbers are assumed not to repeat, and the attestation key to work.)",
  "every history of CTAP and U2F messages, API calls, restarts and crashes",
  "relates everything ever sent to relying parties with the state after unbounded histories",
  ["fido_client/fido_client.go:NewCredentialSource", "fido_client/fido_client.go:DeleteIdentity", "fido_client/fido_client.go:Identities", "ctap/ctap.go:handleMakeCredential", "identities/identity_vault.go:IdentityVault"])
p("C90", "Every assertion comes from an announced credential",
  "A successful assertion, after any history, names a credential announced by an earlier answer of the device to MakeCredential and not deleted since, and its signature over the authenticator data and the client data hash verifies under the public key announced then. (Random numbers are assumed not to repeat.)",
  "every history of CTAP and U2F messages, API calls, restarts and crashes, and every request",
  "the witness for the answer lies arbitrarily far back in the history",
  ["ctap/ctap.go:handleGetAssertion", "ctap/ctap.go:handleMakeCredential", "identities/identity_vault.go:GetMatchingCredentialSources"])
p("C91", "Credential ids are never reused",
  "Two answers to MakeCredential never announce the same credential id, whatever happens before and in between, also when the first credential is deleted or the device restarted. (Random numbers are assumed not to repeat.)",
  "every device state, pair of creations and history in between",
  "all histories between two creations",
  ["identities/identity_vault.go:NewIdentity", "ctap/ctap.go:handleMakeCredential"])
p("C92", "Each action in the user's name was approved, one approval for each",
  "Over any history there are, for each kind of action (creation, assertion, U2F registration, U2F authentication), at least as many questions the user agreed to as answers which claim the user's consent; each such answer is given to a request during which the user was asked exactly one question, of this kind, and agreed; and the user is asked at most once per request and never otherwise.",
  "every history of CTAP and U2F messages, API calls, restarts and crashes, and every behaviour of the user",
  "a counting property of whole histories",
  ["ctap/ctap.go:handleMakeCredential", "ctap/ctap.go:handleGetAssertion", "u2f/u2f.go:handleU2FRegister", "u2f/u2f.go:handleU2FAuthenticate"])
p("C93", "Operations that do not overlap behave sequentially",
  "If each request or API call begins only when no other is at work, then at every quiet moment the state, the results and whether the process lives are exactly those of handling the operations one after the other, and every sequential history arises in this way.",
  "every list of operations, restarts and single memory accesses in which operations do not overlap",
  "ties the handlers split into single memory accesses to the sequential ones, for all histories",
  ["usb/usb_device.go:HandleMessage", "ctap_hid/channel.go:handleMessage", "fido_client/fido_client.go:DefaultFIDOClient", "ctap/ctap.go:HandleMessage", "u2f/u2f.go:HandleMessage"])
p("C94", "One approval each, however requests overlap",
  "However requests on different channels overlap, down to single memory accesses, with API calls, panics and restarts at any moment: each result that claims the user's consent has a question of its own, asked while handling this request, of this kind, to which the user agreed; the user is asked at most once per request and never otherwise.",
  "every interleaving of the memory accesses of any number of requests and API calls, with restarts at any moment, and every behaviour of the user",
  "the number of interleavings is unbounded; consent given for one request must never be used for another at work at the same time",
  ["usb/usb_device.go:HandleMessage", "ctap_hid/channel.go:handleMessage", "fido_client/fido_client.go:DefaultFIDOClient", "ctap/ctap.go:handleMakeCredential", "ctap/ctap.go:handleGetAssertion", "u2f/u2f.go:handleU2FRegister", "u2f/u2f.go:handleU2FAuthenticate"])
p("C95", "Overlapping requests get their own answers",
  "However requests overlap, a successful answer is about its own request: the relying party, client data, challenge and application signed are those of the request, the credential or key handle is one that the request allows, the announced key is that of a credential made for the entities of this request, the user-verified flag needs the right pinAuth in this request, and the user agreed to this request.",
  "every interleaving of the memory accesses of any number of requests and API calls, with restarts at any moment",
  "mix-ups between requests show only in particular interleavings",
  ["usb/usb_device.go:HandleMessage", "ctap_hid/channel.go:handleMessage", "fido_client/fido_client.go:DefaultFIDOClient", "ctap/ctap.go:handleMakeCredential", "ctap/ctap.go:handleGetAssertion", "u2f/u2f.go:handleU2FRegister", "u2f/u2f.go:handleU2FAuthenticate"])
p("C96", "The process can be killed while requests overlap",
  "Whatever is at work when the process is killed (between two memory accesses or writes of the store), it starts again from its store, with the sealing key, attestation certificate and attestation key it was made with, and every credential it then lists was in memory, with the same key, when it was killed.",
  "every interleaving of any number of requests and API calls, and every moment of it",
  "a crash point for each step of each interleaving; the saved state may mix the effects of several requests",
  ["usb/usb_device.go:HandleMessage", "ctap_hid/channel.go:handleMessage", "fido_client/fido_client.go:DefaultFIDOClient", "fido_client/fido_client.go:saveData", "fido_client/fido_client.go:exportData", "fido_client/fido_client.go:NewDefaultClient"])
p("C97", "The PIN guards creation while requests overlap",
  "If a PIN is set and switched on when a MakeCredential request arrives, and nobody is switching it off or begins to, then whatever else is at work before, during and after, the request succeeds only with the pinAuth that the PIN token gives for its client data.",
  "every interleaving of any number of requests and API calls other than switching the PIN off, with restarts at any moment",
  "the check and its use are separate memory accesses, between which anything may happen",
  ["usb/usb_device.go:HandleMessage", "ctap_hid/channel.go:handleMessage", "fido_client/fido_client.go:DefaultFIDOClient", "ctap/ctap.go:handleMakeCredential", "fido_client/fido_client.go:PINHash"])
OV = ["usb/usb_device.go:HandleMessage", "ctap_hid/channel.go:handleMessage", "fido_client/fido_client.go:DefaultFIDOClient"]
p("C98", "Only who knows the PIN can change it or get the token, however requests overlap",
  "However requests overlap, with panics and restarts at any moment: a request to set or change the PIN or to get the PIN token succeeds only if at one of its own steps it was entitled to that, because there was no PIN and it sets the first, or because it showed the hash of the PIN there was, encrypted under the secret shared with its sender; and the PIN changes only by a step of such a request or of the embedding program's call to set it.",
  "every interleaving of the memory accesses of any number of requests and API calls, with restarts at any moment",
  "the check of the old PIN and the writing of the new one are separate memory accesses, between which anything may happen",
  OV + ["ctap/ctap.go:handleSetPIN", "ctap/ctap.go:handleChangePIN", "ctap/ctap.go:handleGetPINToken", "fido_client/fido_client.go:SetPIN"])
p("C99", "Overlapping requests cannot get around the limit on wrong PINs",
  "While the process runs and no right PIN is entered, at most eight requests are answered \"wrong PIN\", however they overlap.",
  "every interleaving of any number of PIN requests",
  "holds for all requests one after the other (C56); an attacker chooses the interleaving",
  OV + ["ctap/ctap.go:handleGetPINToken", "ctap/ctap.go:handleGetRetries", "fido_client/fido_client.go:SetPINRetries"])
p("C100", "A credential announced while requests overlap is kept",
  "A credential announced by a successful answer to MakeCredential is on the device, also after a restart, until it is deleted, however requests overlap.",
  "every interleaving of any number of requests and API calls",
  "a list read before and written after another request's change loses this change, in some interleavings only",
  OV + ["identities/identity_vault.go:AddIdentity", "fido_client/fido_client.go:NewCredentialSource", "fido_client/fido_client.go:saveData"])
p("C101", "Signature counters differ while requests overlap",
  "Two assertions of the same credential never carry the same signature counter, however the requests overlap.",
  "every interleaving of any number of requests",
  "an unlocked increment loses updates in some interleavings only",
  OV + ["ctap/ctap.go:handleGetAssertion", "identities/identity_vault.go:CredentialSource"])
p("C102", "A request changes only what its kind may change",
  "However requests overlap, each memory access of a request changes only what its kind may change: MakeCredential the list of credentials, GetAssertion changes signature counters, PIN requests the PIN and its retries, U2F authentication the U2F counter, and so on, with questions, random draws and the saved data where listed; keys, certificate, PIN token and the contents of existing credentials other than counters never change; GetInfo, GetRetries, GetKeyAgreement, the U2F version request and unknown commands change nothing.",
  "every interleaving of the memory accesses of any number of requests and API calls",
  "a frame property: everything not mentioned stays the same, for all requests in all states",
  OV + ["ctap/ctap.go:HandleMessage", "u2f/u2f.go:HandleMessage", "fido_client/fido_client.go:DefaultFIDOClient"])
LV = OV + ["usb/usb_device.go:HandleMessage", "ctap_hid/ctap_hid.go:HandleMessage", "ctap_hid/ctap_hid.go:sendResponse", "ctap_hid/channel.go:handleDataMessage"]
p("C103", "Every channel gets the answers to its own requests, in order and whole, whatever is going on",
  "In whatever order the goroutines that handle reports, the operations of the authenticator, keepalives and API calls take their steps: every report is dealt with at most once, and none is refused on a channel whose first report came after the channel was announced to the host; the requests handed to the authenticator are exactly those in the reports of their channel (none left out, none added), each one is given once and is an operation of its own; on every channel the host reads exactly the results of its own operations, in order, never mixed up with packets of other messages. When nothing more is going on, all reports have been dealt with and all answers have been sent; in particular requests of one report each are each answered exactly once; and where every report of a channel comes in when those before it have been dealt with, all requests on it, of any number of reports, are given to the authenticator and answered in the order in which they were sent. After a panic nothing is sent.",
  "every interleaving of any number of goroutines, on any number of channels, with any reports of at most 64 bytes",
  "a statement about all schedules of an unbounded number of goroutines and two kinds of locks",
  LV)
p("C104", "The device never hangs",
  "There is no deadlock and no endless work: without further reports and API calls every order of steps ends, and it can only end in a panic or with all goroutines ended, all requests answered and all answers sent.",
  "every interleaving of any number of goroutines and operations, from every reachable state",
  "deadlocks appear in particular schedules only; termination is about all infinite ones",
  LV)
p("C105", "Behind every answer a host reads there is the user's consent to it",
  "However everything interleaves, and whatever happened before the device was started: what hosts read on all channels together claims the user's consent to an action at most as often as the user was asked and agreed; every successful answer read on a channel is about the request sent on this channel, signed for it, with flags that are true of it, and with the consent it claims.",
  "every interleaving of reports, goroutines, operations and API calls, after any history with restarts",
  "relates the bytes on the wire to the questions asked, over all schedules",
  LV + ["ctap/ctap.go:handleMakeCredential", "ctap/ctap.go:handleGetAssertion", "u2f/u2f.go:handleU2FRegister", "u2f/u2f.go:handleU2FAuthenticate"])
p("C106", "Reports that come in while a request is at work have to wait, CANCEL included",
  "While a request of a channel is with the authenticator no other report of this channel has any effect: not on the request, nor on what is sent, nor on the authenticator. In particular CTAPHID_CANCEL cannot stop a request; only the return of the authenticator ends it.",
  "every interleaving, every report on the channel and every request",
  "that something never has an effect is about all schedules",
  LV + ["ctap_hid/channel.go:handleMessage"])

MC = ["mac/mac.go:handleResponse", "mac/mac.go:receiveDataCallback", "mac/client.c:send_data", "mac/USBDriver/USBDrverLib/USBDriverLib.c:notify_frame",
      "mac/USBDriver/USBDriver/USBUserClient.cpp:newHIDFrame", "mac/USBDriver/USBDriver/USBUserClient.cpp:HandleGetFrame",
      "mac/USBDriver/USBDriver/USBUserClient.cpp:HandleSendFrame", "mac/USBDriver/USBDriver/USBDevice.cpp:setReport"]
p("C107", "On macOS reports are dealt with one at a time, in the order sent, and none is lost that the driver has room for",
  "On macOS the process is given the reports of all hosts in the order in which they were sent, and looks at a report only when all those before it are done with. The driver keeps up to seventeen reports that the process has not yet been given; as long as no report is sent when seventeen are waiting, none is lost (an eighteenth makes it forget the oldest). So every request of a host that keeps to the CTAPHID specification, sent on a channel announced to it and split into any number of reports, is given to the authenticator in the order sent, and the host receives exactly the results, in this order. The device comes to rest, and then no report is left in the driver.",
  "every history of reports sent, notifications taken and steps inside the process, with any reports of at most 64 bytes",
  "a report may come in between any two steps of the driver and the process, and any number may be waiting",
  MC)
p("C108", "On macOS requests do not overlap: the device is the sequential one",
  "On macOS, while the embedding program does not call the API, every request is answered before the next one is given to the authenticator, on whatever channels they are: the state of the authenticator, what it saved, what the user was asked and all the answers hosts receive are those of a device that is given the requests one after the other, in the order in which the reports that completed them were sent. So the races of C99 to C101 cannot happen there.",
  "every history of reports, notifications and steps, after any history of operations that did not overlap",
  "equality with a sequential execution has to hold for all schedules",
  MC + ["ctap_hid/channel.go:handleMessage", "ctap/ctap.go:HandleMessage", "u2f/u2f.go:HandleMessage"])
p("C109", "Credential ids are unique however requests overlap",
  "As long as the random source does not repeat itself, no two requests are answered with a new credential of the same id, and no two credentials on the device have the same id, however requests and calls of the API overlap and however often the process is ended, at any moment, and started again on what it has saved.",
  "every interleaving of requests and calls, every restart, for as long as random draws differ",
  "a credential is drawn, put on the list and saved in separate steps with steps of other requests between them",
  OV + ["identities/identity_vault.go:NewIdentity", "identities/identity_vault.go:Import"])
p("C110", "Keys, nonces and salts are used once",
  "As long as the random source does not repeat itself: no two requests are answered with a new credential or a U2F registration of the same public key; no two registrations have key handles sealed under the same nonce (so the handles differ); and whenever what is saved has changed it has been encrypted with a salt, a data key and nonces that were not used for anything saved before. This holds however requests and calls of the API overlap and however often the process is ended, at any moment, and started again on what it has saved.",
  "every interleaving of requests and calls, every restart, for as long as random draws differ",
  "reuse of a nonce under the same key shows in no single answer, and would depend on the schedule",
  OV + ["crypto/crypto.go:Encrypt", "identities/saved_state.go:EncryptWithPassphrase", "u2f/u2f.go:sealKeyHandle", "u2f/u2f.go:handleU2FRegister", "identities/identity_vault.go:NewIdentity", "fido_client/fido_client.go:NewPrivateKey"])
p("C111", "Channels are created by one goroutine at a time; only on macOS is nothing else using the table of channels then",
  "However the goroutines that handle reports take their steps, no two of them create channels at the same moment. Over USB/IP nothing keeps other goroutines from looking up their channels at that moment: whenever a channel is about to be created, any report that comes in is enough for it (a concurrent read and write of a Go map, for which the Go runtime may end the process). On macOS this cannot happen, whatever reports are sent and whether or not the embedding program calls the API; and while it does not, at most one operation is at work in the authenticator.",
  "every interleaving of any number of goroutines, with any reports of at most 64 bytes",
  "the race detector sees only the schedules that happen",
  LV + ["ctap_hid/ctap_hid.go:newChannel"] + MC)
p("C112", "A USB/IP client gets its own answers, in order, whatever takes place at the same time",
  "However the command loop of the server, the goroutines that handle reports, the authenticator, the embedding program, the sending of reports and the timers take their steps: a goroutine is started for every report the client hands over, in this order; the client receives every packet the device sends once and in order, with reports of zeros in between, and while it waits for a report none is kept from it; on every channel the answers it reads are the results of its own requests, in order; requests of one report each on a channel it was told of are all given to the authenticator exactly once and answered, and so, in the order sent, are requests of any length if each report is read when those before it on the channel have been dealt with; no answer claims a consent the user did not give. There is no deadlock, and without new commands, calls of the API and keepalives the work ends.",
  "every session of USB/IP commands with reports of at most 64 bytes, and every interleaving of all steps",
  "the number of interleavings of command loop, goroutines, authenticator, sender and timers has no bound",
  OV + LV + ["usbip/usbip_server.go:handleCommands", "usb/usb_device.go:HandleMessage", "usb/usb_device.go:handleResponse", "util/request_buffer.go:Respond"])
p("C113", "A host finds a FIDO device",
  "From the answers to its requests for descriptors, in every state of the device and whatever language and length it asks with, a host that reads them as USB and HID say finds a device with one configuration and one interface, of class HID, with an interrupt endpoint to the host and one from the host, both with packets of 64 bytes; these, and no others besides endpoint 0, are the endpoints the device serves, the one from the host as the way reports come in. The report descriptor, over USB/IP and on macOS, announces a FIDO device (usage page 0xF1D0, usage 1) with input and output reports of 64 bytes. Every text a descriptor names can be read, and texts of any characters are encoded so that they can be. What the server says of the device agrees with the descriptors. (Except for the release number, 0 and 1; the number of the configuration is 0, which stands for 'not configured'; and the logical maximum of the fields, a signed number by the HID specification, is -1, below the minimum 0.)",
  "every request for a descriptor, every state, every endpoint number, setup packet and data, every text",
  "hosts ask in any order with any lengths; a parser of another host may read what a test's parser does not",
  ["usb/usb_device.go:getDescriptor", "usb/usb_device.go:getHIDReport", "usb/usb_device.go:HandleMessage", "usb/usb_device.go:DeviceSummary", "usb/usb_device.go:getStringDescriptor", "util/util.go:Utf16encode", "mac/USBDriver/USBDriver/USBDevice.cpp:newReportDescriptor"])
p("C114", "What GetInfo announces is true",
  "In every state GetInfo announces the versions FIDO_2_0 and U2F_V2, keys that stay on the device (rk), user presence (up), a device that is not part of the platform, no user verification of its own, and PIN protocol 1 exactly if PINs are supported. The AAGUID it announces is the one in the authenticator data of every credential the device makes. A user is verified, and a ClientPIN request successful, only by a protocol announced in that state. A credential just made is found without being named. U2F_V2 is what the U2F part says when asked for its version. (Of FIDO_2_0 two commands are missing: authenticatorGetNextAssertion and authenticatorReset end the process.)",
  "every state, every request",
  "the announcement and the behaviour it is about are in different requests and states",
  ["ctap/ctap.go:handleGetInfo", "ctap/ctap.go:handleMakeCredential", "ctap/ctap.go:handleGetAssertion", "ctap/ctap.go:handleClientPIN", "ctap/ctap.go:makeAttestedCredentialData", "u2f/u2f.go:HandleMessage"])
p("C115", "Wrong guesses tell nothing about the PIN but that they are wrong",
  "Take two devices with the same history, on which different PINs are then set. As long as nobody presents the PIN of either, no request, call of the API or restart makes a difference between them: all answers, the number of tries left, the questions put to the user and where the process ends are the same on both. So a PIN can only be found by presenting it (in plain terms: trying it), of which C54 bounds the number.",
  "every history before the PINs are set, all pairs of PINs, every sequence of requests, calls and restarts after it",
  "an answer that depends on the PIN shows only in comparison with the device that has another PIN",
  ["ctap/ctap.go:handleClientPIN", "ctap/ctap.go:handleSetPIN", "ctap/ctap.go:handleChangePIN", "ctap/ctap.go:handleGetPINToken", "ctap/ctap.go:handleMakeCredential", "fido_client/fido_client.go:exportData"])
p("C117", "A PIN token is good until the process ends",
  "A PIN token a platform was given authorizes requests, as verified, until the process is started anew, whatever is requested or called in between; a process started later has another token (as long as the random source does not repeat itself). (In particular changing the PIN, by a platform or through the API, does not revoke the tokens given out under the old PIN, which CTAP 2 wants it to.)",
  "every history before the token is given out and every history between that and its use",
  "the length of the histories has no bound",
  ["ctap/ctap.go:handleMakeCredential", "ctap/ctap.go:handleGetPINToken", "ctap/ctap.go:handleChangePIN", "fido_client/fido_client.go:SetPIN", "fido_client/fido_client.go:NewDefaultClient"])
p("C116", "Relying parties do not notice each other's credentials",
  "Take two running devices that are the same except for the credentials of relying parties other than A. In any history of requests and calls of the API without a restart and without a deletion, in which assertions are requested for A only (and credentials made for anybody, U2F and PINs used at will), all answers and all questions put to the user are the same, and so are A's credentials afterwards. So A cannot find out whether, where and under which names the user has other credentials. (After a restart it can: the relying party of the last credential is then given to all, C78.)",
  "all pairs of devices, every history of requests and calls",
  "two devices have to be compared over every history; a test has one device",
  ["identities/identity_vault.go:GetMatchingCredentialSources", "fido_client/fido_client.go:GetAssertionSource", "ctap/ctap.go:handleGetAssertion", "ctap/ctap.go:handleMakeCredential"])
p("C118", "A running device and commands run beside it",
  "The demo commands that change the file with the credentials and the PIN (delete, pin enable, disable and set) may be run while the device is running from the same file. The running device does not notice: whatever other processes write to the file and whenever, its answers, its credentials and its PIN are the same as if they had not. With its next save the file is as if the other process had not written it: so an identity deleted meanwhile is back after a restart. Only if the device has saved nothing since, the file is as the other process left it.",
  "every history of requests, calls and writes of the file by other processes, with any content",
  "the effect shows only after some later save or start, in any history",
  ["cmd/demo/demo.go:deleteIdentity", "cmd/demo/demo.go:enablePIN", "cmd/demo/demo.go:createClient", "cmd/demo/server.go:SaveData", "fido_client/fido_client.go:loadData", "fido_client/fido_client.go:saveData"])
p("C119", "A relying party that checks everything accepts what the device answers",
  "Take a relying party that follows WebAuthn: on registration it checks the format, the algorithm, its own hash, user presence (and user verification if it demands it), that the public key is well formed, that the signature over authenticator data and client data verifies under the key of the attestation certificate, that this is signed by the trusted certificate, and that the credential is new; on login it checks that it has registered the credential and had asked for it, its own hash, presence (and verification), the signature under the registered key and that the counter has gone up. Whatever was requested, called and restarted before, it accepts every successful answer to its registrations and every successful answer to its logins that names a credential it has registered (if it demands verification, this is for requests it sends with a PIN authorization while a PIN is set, and logins are those that do not waive presence). Without a restart a party that does not demand verification accepts every successful answer to its logins, and whoever has registered can log in until the credential is deleted, if the user approves. (After a restart neither holds: a party whose credential exists is told there is none, and another gets an answer with a credential it does not know, C78.)",
  "every history of requests, calls and restarts, of any relying parties; every relying party; every request",
  "registration and login may be any number of requests and restarts apart; the checks involve what was remembered in between",
  ["ctap/ctap.go:handleMakeCredential", "ctap/ctap.go:handleGetAssertion", "ctap/ctap.go:makeAuthData", "ctap/ctap.go:makeAttestedCredentialData", "fido_client/fido_client.go:CreateAttestationCertificiate", "identities/identity_vault.go:GetMatchingCredentialSources", "fido_client/fido_client.go:GetAssertionSource"])
p("C120", "A U2F relying party that checks everything accepts what the device answers",
  "Take a U2F relying party that, on registration, checks that the answer is well formed, that the attestation certificate is signed by the trusted issuer and the signature verifies under the certificate's key, and that the handle is new; and on login that the handle is registered, the user was present, the signature verifies under the registered key and, if it looks at counters, that the counter has gone up. Whatever was requested, called and restarted before, it accepts every successful answer to a registration; and a running device answers every authentication request for a handle registered with the party, as soon as the user agrees, and the party accepts the answer. (A party that looks at counters only if before every restart something was saved after the last U2F authentication, a credential made or used or a PIN setting changed through the API: otherwise the device repeats counters, C67, and the party has to reject.)",
  "every history of requests, calls and restarts; every relying party; every request",
  "registration and login may be any number of requests and restarts apart; the counter may be lost at any restart",
  ["u2f/u2f.go:handleU2FRegister", "u2f/u2f.go:handleU2FAuthenticate", "u2f/u2f.go:openKeyHandle", "u2f/u2f.go:sealKeyHandle", "fido_client/fido_client.go:NewAuthenticationCounterId", "fido_client/fido_client.go:saveData", "fido_client/fido_client.go:CreateAttestationCertificiate"])
p("C121", "The macOS driver uses its memory rightly, and what it loses",
  "Whatever memory the system hands out and whatever calls the driver for macOS gets, in any order (methods called by any process, with any arguments; reports from the host of at most 64 bytes; being stopped and closed at any time), it reads, writes and frees only memory that is allocated, its linked list of reports behaves as a queue (which C107 and C108 take for granted), its answers and what the host is sent are those of a driver with a plain queue, and the memory of others is as it was. At most 17 reports wait; when it is closed its list and nodes are freed. (Not so: each report it forgets and each still waiting when it is closed is never freed, nor is a completion or a device it was given before; so a host can make it lose any amount of memory. The copy the Go side makes of each packet is never freed either. The method StopDevice follows a NULL pointer. A report or a packet longer than 64 bytes is copied over the end of a frame. If there is no memory for a report it writes through NULL.)",
  "every sequence of calls and reports, every behaviour of the memory allocator",
  "a wrong pointer shows only for some order of calls and some placement in memory; leaks show only after long histories",
  ["mac/USBDriver/USBDriver/util.cpp:linked_list_push", "mac/USBDriver/USBDriver/util.cpp:linked_list_pop_front", "mac/USBDriver/USBDriver/util.cpp:linked_list_free", "mac/USBDriver/USBDriver/USBUserClient.cpp:newHIDFrame", "mac/USBDriver/USBDriver/USBUserClient.cpp:HandleGetFrame", "mac/USBDriver/USBDriver/USBUserClient.cpp:StaticHandleStopDevice", "mac/client.c:send_data", "mac/mac.go:handleResponse"])
p("C122", "What is in attestation certificates",
  "Whatever was requested, called and restarted before, the certificate in the answer to every registration that succeeds, by CTAP2 or U2F, meets the requirements of WebAuthn on packed attestation: the subject has a country of two letters, an organization, a common name and the unit 'Authenticator Attestation', and the certificate is not that of an authority. It is valid from a moment during the registration for ten years, and issued in the name of the authority the device was configured with. With an authority as the demo makes it (which always succeeds, and is accepted under itself), whoever trusts this authority accepts the certificate by the rules for certification paths while both are valid. (Not so: serial numbers, which shall be positive and unique for each issuer. All are 0, that of the authority too.)",
  "every history of requests, calls and restarts; every registration; every point of time; every authority",
  "a certificate is made anew for each registration; its contents depend on the time and on what the device kept of its authority",
  ["identities/attestation.go:CreateSelfSignedAttestationCertificate", "identities/attestation.go:CreateSelfSignedCA", "identities/attestation.go:CreateCAPrivateKey", "fido_client/fido_client.go:CreateAttestationCertificiate"])
p("C123", "The authority of the demo, from start to start",
  "The demo makes itself a certificate authority each time it is started. Once it has saved anything, it has one authority for ever: whatever is requested and called and however often it crashes and is started, whoever trusts that authority accepts the certificate of every registration that succeeds; in general what is saved wins over all arguments a client is created with. The demo can always be started again. (Before anything is saved, and U2F registrations save nothing, each start has another authority, and who trusts a later one does not accept the certificates of an earlier one. Nor are U2F keys bound to a device: a key registered with one demo can be used with any other, as they all seal handles with the same key.)",
  "every history of requests, calls, crashes and starts of the demo; pairs of demos with any histories",
  "what is kept shows only some starts later, in any history",
  ["cmd/demo/demo.go:createClient", "fido_client/fido_client.go:NewDefaultClient", "fido_client/fido_client.go:importData", "identities/attestation.go:CreateSelfSignedCA", "crypto/crypto.go:Encrypt"])
p("C124", "Which credential answers a login",
  "From the requests and answers alone one can keep a list of credentials (relying party, id) that tells at any time which credential a login will use: a registration puts its credential at the end; a deletion takes one out and puts the last in its place; at a start all are given to the relying party of the last (C78). Over every history with restarts and crashes a login that succeeds names the first credential of the list that is for the relying party and in its allow list, if it sent one; without such a credential the answer is 'no credentials'; with one, an approved login with a right PIN succeeds; so each credential of the list can be used by naming it. As long as nothing is deleted and the program is not restarted, a login that names no credential is answered with the one made first. (So registering an account again does not replace it, as CTAP 2 demands of resident keys: the login still uses the old one. And deleting a credential of one relying party can change with which account a login at another is made.)",
  "every history of requests, calls, restarts and crashes; every login",
  "which credential is first depends on all registrations, deletions and starts before",
  ["identities/identity_vault.go:GetMatchingCredentialSources", "identities/identity_vault.go:DeleteIdentity", "identities/identity_vault.go:NewIdentity", "identities/identity_vault.go:Import", "fido_client/fido_client.go:GetAssertionSource", "ctap/ctap.go:handleGetAssertion"])
p("C125", "Saved data cannot be forged, only put back",
  "Others who do not know the passphrase write into the file with the credentials what they like and whenever they like, while the device is running or not: earlier saved data, pieces of several earlier saved data put together, anything else they can make. Then a start of the program fails, or the device is as it was right after some request at which it saved its data, with all keys, credentials, counters and PIN of that moment, and nothing mixed from several moments. A login that succeeds is signed with the key of a credential that the device announced in answer to a registration; so nobody can plant a credential. (But any earlier saved data are accepted: a start brings back the device as it was then. So deleted credentials come back, an earlier PIN or the time without a PIN as well, and signature counters are repeated.)",
  "every history of requests, calls, restarts, crashes and writes of others, at any time, with any data not made with the keys",
  "the data written are chosen by an adversary, at any point of any history",
  ["identities/saved_state.go:EncryptWithPassphrase", "identities/saved_state.go:DecryptWithPassphrase", "identities/saved_state.go:DecryptFIDOState", "fido_client/fido_client.go:loadData", "fido_client/fido_client.go:importData", "fido_client/fido_client.go:saveData", "cmd/demo/server.go:RetrieveData", "crypto/crypto.go:Decrypt"])
p("C126", "What the log shows of secrets",
  "Two devices that answer the same messages in the same way log the same at all levels but Unsafe (memory addresses aside), whatever keys, PINs, tokens and saved data they have, over every history with restarts: so the log tells no more than the messages and the answers. Left out are requests for a PIN token, setting a PIN by CTAP2, registrations by U2F that are not completed, and authentications by U2F whose key handle is refused. (There the log at level Debug, which the demo shows, does give away secrets: each request for a token that gets as far as comparing PINs, right or wrong, and each setting of a PIN by CTAP2, logs the stored hash of the PIN, and whoever has the hash gets the PIN token without the PIN; an authentication by U2F for one application with a key handle of another logs the private key of the other, without asking the user.)",
  "every pair of devices, every history of requests, calls and restarts",
  "that something is not told is a statement on pairs of runs, for all secrets",
  ["ctap/ctap.go:HandleMessage", "ctap/ctap.go:handleGetPINToken", "ctap/ctap.go:handleSetPIN", "ctap/ctap.go:handleGetAssertion", "u2f/u2f.go:handleU2FAuthenticate", "u2f/u2f.go:handleU2FRegister", "u2f/u2f.go:HandleMessage", "util/log.go:NewLogger", "cmd/demo/demo.go:createClient"])

p("C127", "What the device keeps in memory",
  "Whatever reports of at most 64 bytes come in and in whatever order the goroutines run, each channel keeps at most 7609 bytes of a request, and there are at most as many channels as reports came in, and the broadcast channel. With an output set, the log keeps in memory just the lines of the levels that are not shown, and nothing that is logged is lost. (So what is kept has no bound: no channel is ever given back, and for every n up to the number of channel numbers there is a host that has n channels after n reports; and at level Debug, as in the demo, every line of level Trace, one for each USB/IP command, stays in memory for as long as the process runs.)",
  "every list of reports, every schedule of the goroutines; every history of calls of the log",
  "that memory is bounded, or not, is a statement on all histories, of any length",
  ["ctap_hid/transaction.go:addMessage", "ctap_hid/ctap_hid.go:newChannel", "ctap_hid/ctap_hid.go:HandleMessage", "util/log.go:Write", "util/log.go:SetLogLevel", "usbip/usbip_server.go:handle"])

p("C128", "A host that behaves never ends the process",
  "A host whose requests are well formed (known commands; registrations with a relying party and a user; PIN requests with a real public key and whole blocks; U2F messages well framed, with key handles the device issued or bytes that are no handle at all), and that between two starts sends at most seven requests that try a PIN, never makes the process end, in whatever order and overlap its requests on any channels, the calls of the embedding program and restarts take place; and none of its requests is lost: each is at work or has its answer. (Seven cannot be eight: eight requests for the PIN token that overlap, all with the right PIN, can use up the eight attempts, and then asking for the number left ends the process.)",
  "every schedule of any number of overlapping requests, calls and restarts",
  "that no interleaving panics is a statement on all of them; each single request is fine",
  ["ctap/ctap.go:HandleMessage", "ctap/ctap.go:handleGetPINToken", "ctap/ctap.go:handleChangePIN", "u2f/u2f.go:HandleMessage", "fido_client/fido_client.go:PINRetries", "fido_client/fido_client.go:SetPINRetries", "usb/usb_device.go:HandleMessage"])

p("C129", "Hosts that behave are answered",
  "Any number of hosts that send reports of 64 bytes with commands the device knows (INIT, PING and CANCEL on the broadcast channel; MSG, CBOR, PING and CANCEL on any other) never make the HID server panic, in whatever order the reports come in and the goroutines run, be they parts of requests or not. If what can be made of the reports is harmless as in C128, with at most seven attempts at the PIN since the start, the process never ends, and whenever the device has come to rest every request has been answered; on a channel announced before its first report, on which each report is sent when those before it have been dealt with, the host has been sent the results of all its requests in order. (Any other command, in a report of one message, ends the process: also INIT on the host's own channel, with which the CTAPHID specification has hosts begin afresh.)",
  "every list of reports on any channels, every schedule of their goroutines, of the authenticator's operations and of the embedding program's calls",
  "that some schedule of some mixture of reports panics or leaves a request without an answer cannot be excluded by trying some of them",
  ["ctap_hid/ctap_hid.go:HandleMessage", "ctap_hid/channel.go:handleMessage", "ctap_hid/channel.go:handleBroadcastMessage", "ctap_hid/channel.go:handleDataMessage", "ctap_hid/transaction.go:newCTAPHIDTransaction", "ctap_hid/transaction.go:addMessage", "usb/usb_device.go:HandleMessage", "ctap/ctap.go:HandleMessage", "u2f/u2f.go:HandleMessage"])

p("C130", "Hosts that behave are answered over USB/IP and on macOS",
  "A USB/IP client, or a host on macOS, whose reports are ones the device knows (C129) and make only harmless requests, with at most seven attempts at the PIN since the start, never ends the process: not by any order or pace of its commands, nor by withdrawing transfers or leaving them unread. Whatever has happened, the device can come to rest with nobody doing anything. When it has, then on a channel announced before its first report the client has the results of all its requests in order: over USB/IP if it has fetched what was sent, and its reports were read each after those before it had been dealt with; on macOS at whatever pace, as long as the driver had room for each report.",
  "every list of commands of the client, every interleaving of the connection's reads and writes with the device's goroutines, every list of reports and notices on macOS",
  "that some timing of a driver's commands ends the process or loses an answer cannot be excluded by trying some timings",
  ["usbip/usbip_server.go:handleCommands", "usbip/usbip_server.go:handleCommandSubmit", "usb/usb_device.go:HandleMessage", "usb/usb_device.go:handleControlMessage", "mac/mac.go:receiveDataCallback", "ctap_hid/ctap_hid.go:HandleMessage", "ctap/ctap.go:HandleMessage", "u2f/u2f.go:HandleMessage"])

p("C131", "What a host is told is what the authenticator answers, and relying parties accept it",
  "Whatever was done before, one request at a time, a single host that then gets a channel from the device and sends requests on it, in reports, on macOS or over USB/IP, reads from the device's reports exactly the answers that the authenticator gives to these requests one after the other in the state it was in, and leaves it in the state after them: the transport, its packets, its goroutines and its timing add nothing and lose nothing. (On macOS at any pace, as long as the driver has room for each report; over USB/IP if the server reads each report when those before it have been dealt with, and the client fetches what is sent. The embedding program makes no calls meanwhile, and the device has come to rest.) Therefore a WebAuthn relying party that checks all it should, given every successful answer since the process started, those before the host came included, accepts each registration, and each login that asked for the user's presence; and a U2F relying party accepts each registration, and each login with a key it registered; for U2F the process may have been restarted before the host came, provided, if the relying party checks counters, that something was saved after the last authentication.",
  "every history before, every list of requests, every schedule of the transport and of the device's goroutines, every relying party that does not demand user verification",
  "what a host reads depends on timing, fragmentation and the whole history; that a relying party accepts it depends on all answers before",
  ["usb/usb_device.go:HandleMessage", "usbip/usbip_server.go:handleCommandSubmit", "mac/mac.go:receiveDataCallback", "ctap_hid/ctap_hid.go:HandleMessage", "ctap_hid/channel.go:handleDataMessage", "ctap/ctap.go:HandleMessage", "ctap/ctap.go:handleMakeCredential", "ctap/ctap.go:handleGetAssertion", "u2f/u2f.go:HandleMessage"])

p("C132", "Who registered can log in, from a host",
  "A relying party has accepted a registration, made by a host over the transport or by whatever was done in the process before, and the credential has not been deleted. Then a lone host (C131), on macOS or over USB/IP, that asks for a login with this credential, after any other requests, in any reports and at any timing of C131, meeting the PIN rules and with a user who agrees, reads an answer of success from the device's reports, and the relying party accepts it for this credential. Likewise with U2F, where the user need not be asked if the request says so, and the relying party may check the counter; there the process may also have been restarted between registration and login (with the proviso of C131).",
  "every history before, every list of requests of the host, every schedule of transport and goroutines",
  "that the login succeeds depends on the whole history since the registration and on every packet and schedule between host and authenticator",
  ["usb/usb_device.go:HandleMessage", "usbip/usbip_server.go:handleCommandSubmit", "mac/mac.go:receiveDataCallback", "ctap_hid/ctap_hid.go:HandleMessage", "ctap/ctap.go:handleMakeCredential", "ctap/ctap.go:handleGetAssertion", "u2f/u2f.go:handleU2FRegister", "u2f/u2f.go:handleU2FAuthenticate", "identities/identity_vault.go:GetMatchingCredentialSources"])

p("C133", "The demo attaches the device it serves, and nobody else gets it",
  "Over USB/IP at most one client is ever given the device in the life of a process, whatever connections come in and whatever is sent over them: to everybody before it at most that there is no such device is said, and nobody after it is accepted. On Linux and Windows the demo starts one command, which connects to this machine and asks for the bus id under which the server exports the device; in whatever order the goroutines go on and whoever else connects, if the server was listening the command is given the device, with an answer it is content with, unless the server stays with a client that connected earlier. The server goes on from clients that are not on this machine's loopback addresses, and from those that asked for nothing or for other devices and closed. (It does not go on from a client that says nothing and does not close, nor from one that was given the device, even when it has closed: the command then waits for ever. If the server was not listening after the half second, the command fails and is not started again.) However the command ends, the server goes on; the demo dies only when it cannot listen. On macOS nobody is listened to and no command is started.",
  "every list of connections with any contents, every order of the demo's goroutines and of the clients, every network",
  "who connects first and what they send is up to others; that a second client never gets in is a statement on all of them",
  ["usbip/usbip_server.go:Start", "usbip/usbip_server.go:handle", "usbip/usbip_server.go:getDevice", "usb/usb_device.go:BusID", "usb/usb_device.go:DeviceSummary", "cmd/demo/server.go:runServer", "cmd/demo/exec_linux.go:platformUSBIPExec", "cmd/demo/exec_windows.go:platformUSBIPExec", "cmd/demo/exec_macos.go:platformUSBIPExec"])

p("C134", "The PIN is the one last set",
  "Whoever has seen every request, call and answer since the device was first started knows its PIN. If a PIN was set, by the program or by a setPIN or changePIN request answered with success, and none was set since, whatever else happened, restarts included, then, as long as PIN support is on and tries are left, a platform that agreed on a secret with the device gets the token for this PIN and for no other (PIN_INVALID; the PIN stands for the first 16 bytes of its SHA-256), can change the PIN with this one and with no other, and cannot set one anew (PIN_AUTH_INVALID). If none was ever set, no guess gets the token and one can be set. PIN support is as first configured until it is switched; the tries left are 8 after a start or a right PIN and one less after each wrong one. Without tries left an attempt, right or wrong, ends the process and changes nothing. GetInfo says whether a PIN was ever set while PIN support is on, and nothing of PINs otherwise. (The demo first starts with PIN support off; from then on it is as last switched, by whichever process.)",
  "every history of requests, calls, user's answers and restarts, every PIN and guess, every platform key",
  "the state of the PIN is the outcome of the whole history, across saves and restarts",
  ["ctap/ctap.go:handleClientPIN", "ctap/ctap.go:handleSetPIN", "ctap/ctap.go:handleChangePIN", "ctap/ctap.go:handleGetPINToken", "ctap/ctap.go:handleGetInfo", "fido_client/fido_client.go:SetPIN", "fido_client/fido_client.go:SetPINHash", "fido_client/fido_client.go:SetPINRetries", "fido_client/fido_client.go:EnablePIN", "fido_client/fido_client.go:DisablePIN", "fido_client/fido_client.go:loadData"])

p("C135", "Who knows the PIN is verified, from a host",
  "A lone host as in C131, on macOS or over USB/IP, with any requests before, that has read the device's key for the key agreement and computed the secret from it, and then asks for a PIN token: with the PIN last set (C134) it reads an answer from the device's reports from which it decrypts a token, with another (of another hash) it reads PIN_INVALID; as long as PIN support is on and tries are left. With a token it has read, a host that asks for a registration, or for a login with a credential registered before, with a proof by this token over the client data hash, and whose user agrees, reads an answer of success that the relying party accepts, also one that demands user verification.",
  "every history before, every list of requests of the host, every PIN, platform key and client data hash, every schedule of transport and goroutines of C131",
  "the token and the key agreement key that the host has read must be those the device still has after the whole conversation, in every schedule",
  ["ctap/ctap.go:handleClientPIN", "ctap/ctap.go:handleGetKeyAgreement", "ctap/ctap.go:handleGetPINToken", "ctap/ctap.go:handleMakeCredential", "ctap/ctap.go:handleGetAssertion", "usb/usb_device.go:HandleMessage", "usbip/usbip_server.go:handleCommandSubmit", "mac/mac.go:receiveDataCallback", "ctap_hid/ctap_hid.go:HandleMessage"])

p("C136", "Several hosts at once are served in one order",
  "Whatever was done before, one request at a time, let any number of programs use the device at once, on macOS or over USB/IP, each on a channel of its own, their reports interleaved in any way; some may break every rule of the protocol (at most 64 bytes a report), or send on channels they were not given. Then there is one order of all requests that reached the authenticator, none of them on the broadcast channel, that of the reports which completed them, such that the device answered as it does when asked this alone, one request after the other, and is in the state after them; and every well-behaved program reads exactly the answers to its own requests in this order, all of them. (Same conditions on the transport as C131.) A WebAuthn relying party that checks all it should and is shown all this in this order, from whichever program, accepts every successful registration and every successful login that asked for the user's presence; a U2F relying party likewise (with the proviso of C131).",
  "every history before, any number of programs, well-behaved or not, every interleaving of their reports, every schedule of transport and goroutines of C131, every relying party that does not demand user verification",
  "the interleavings of the reports of several programs, with arbitrary reports of others among them, cannot be enumerated",
  ["usb/usb_device.go:HandleMessage", "usbip/usbip_server.go:handleCommandSubmit", "mac/mac.go:receiveDataCallback", "ctap_hid/ctap_hid.go:HandleMessage", "ctap_hid/channel.go:handleDataMessage", "ctap/ctap.go:HandleMessage", "u2f/u2f.go:HandleMessage"])

p("C137", "Who registered through one program can log in through another",
  "Any number of programs use the device at once, as in C136. In the order in which they were served: if a relying party has accepted a registration, whichever program it came through, or in what was done before, and the credential has not been deleted, a login request for it, from any of the programs, that meets the PIN rules and whose user agrees is answered with success, and the relying party accepts the answer; likewise with U2F (with the provisos of C132). A program that was told the device's key and asks for a PIN token with the PIN last set, by whichever program, is told a token, and PIN_INVALID with any other PIN, as long as PIN support is on and tries are left. With a token it was told, whatever other programs did since, its registrations and logins with a proof by this token are answered with success and accepted, also by relying parties that demand user verification.",
  "every history before, any number of programs, well-behaved or not, every interleaving of their reports, every schedule of transport and goroutines of C131, every request in the order",
  "what other programs do between a registration and a login, or between a token and its use, in every interleaving, cannot be enumerated",
  ["ctap/ctap.go:handleMakeCredential", "ctap/ctap.go:handleGetAssertion", "ctap/ctap.go:handleClientPIN", "u2f/u2f.go:handleU2FAuthenticate", "ctap_hid/ctap_hid.go:HandleMessage", "usb/usb_device.go:HandleMessage", "usbip/usbip_server.go:handleCommandSubmit", "mac/mac.go:receiveDataCallback"])
p("C138", "What a USB/IP client makes the server hold lasts no longer than its timers, and is bounded only by what is declared",
  "For a poll (CMD_SUBMIT on the endpoint of input reports) the server makes a buffer of the length the client declares and keeps it until the poll's one-second timer has fired. Whatever the client sends, no poll waits whose timer has fired, so once the timers have fired, which needs nothing of the client, nobody waits and none of these buffers is held; at any moment they hold at most 4294967295 bytes for every 48 bytes received. (No smaller bound holds: for every n, a client that sends 48·n bytes makes the server hold 4294967295·n bytes, until the timers fire. The length is not limited by the size of a report, and a poll that was answered or withdrawn is kept as long as one that waits.)",
  "every byte stream, well-formed or not, every way the network cuts it into pieces, every schedule of the command loop, the device's goroutines, sent reports and timers, every n",
  "the buffers held depend on all commands of the last second and on what was answered meanwhile; no test sends every stream, and the worst case does not fit a test machine",
  ["usbip/usbip_server.go:handleCommandSubmit", "usb/usb_device.go:HandleMessage", "usb/usb_device.go:RemoveWaitingRequest", "util/request_buffer.go:Request", "util/request_buffer.go:CancelRequest", "util/util.go:SetTimeout"])
p("C139", "Several programs together get no more than one alone",
  "Any number of programs use the device at once, on macOS or over USB/IP (as in C136), each sending what it likes. In the one order in which they were served: between two right PINs at most 8 wrong ones were told to be wrong, whichever programs tried, and after 8 no program is told anything about a PIN; each assertion given to a program is signed with the key of a credential announced earlier, to whichever program, and not deleted since; of two assertions with one credential (and of two U2F authentications) the later has the higher counter, even if they went to different programs; each answer that claims the user's consent was given to a request during which the user was asked one question, of that kind, and agreed, so that an approval given for one program is not used for another; and with a PIN set and enabled, a credential is only made for a request that is signed with the device's token.",
  "every number of programs, all reports they send and all ways they are mixed, all schedules, everything done before",
  "depends on how requests of different programs follow each other, and on all that was done before",
  ["mac/mac.go:receiveDataCallback", "ctap_hid/ctap_hid.go:HandleMessage", "ctap_hid/channel.go:handleDataMessage", "ctap/ctap.go:HandleMessage", "u2f/u2f.go:HandleMessage", "fido_client/fido_client.go:ApproveAccountLogin"])
p("C140", "Saved data with keys in the older format are read and converted",
  "Saved data may hold private keys as older versions wrote them (P-256 keys in DER) or as this one does (COSE keys), also some of each. The program starts with them, and the device has all keys, credentials with id, type and counter, PIN and certificate that were saved. What it saves then has all keys in the new format, and a start with that gives the same device. If all credentials are of one relying party and have different ids, a login that allows one of them succeeds, and its signature verifies with the public key of the key that was saved for it. The vault's Import keeps what the vault has, adds the credentials up to the first unreadable key and returns an error exactly if there is one. (But the client ignores this error: the program starts without the credential that has it and without all credentials saved after it, and the next time the device saves its data they are gone, also those with readable keys.)",
  "every saved state, with any number of credentials and any mixture of formats; every position of the first unreadable key",
  "all states and mixtures; needs files of an older version",
  ["identities/identity_vault.go:Import", "identities/identity_vault.go:Export", "fido_client/fido_client.go:importData", "fido_client/fido_client.go:exportData", "fido_client/fido_client.go:saveData", "cose/cose.go:UnmarshalCOSEPrivateKey", "cose/cose.go:MarshalCOSEPrivateKey"])

p("C141", "A report that does not fit is answered with one error that says why",
  "On an open channel with no request under way, a report that starts none (a continuation) is answered with exactly one CTAPHID_ERROR report on that channel, with ERR_INVALID_CMD. While a request is under way, with however many of its continuation reports received, every report on the channel other than the next continuation and CANCEL (a wrong sequence number, or the start of another request) is answered with exactly one CTAPHID_ERROR report with ERR_INVALID_SEQ. In both cases nothing is acted on, nothing above changes, the other channels are as before and this one is free for the next request.",
  "every state of the device, channel, request, number of continuation reports received and report that does not fit",
  "all states, lengths and positions",
  ["ctap_hid/transaction.go:newCTAPHIDTransaction", "ctap_hid/transaction.go:addMessage", "ctap_hid/channel.go:handleMessage", "ctap_hid/ctap_hid.go:sendError"])
