import Verif.Model.Stack
import Verif.Model.Device

/-!
# The whole program

client_usbip.go:13-19 with the client of fido_client.go: the transport of `Verif.Model.Stack` with the
authenticator of `Verif.Model.Device` on top.
-/

namespace VF.Whole

/-- client_usbip.go:14-16: the CTAP and U2F servers are created for the client and handed to the HID
server; channel.go:88-97: which of the two gets a message -/
def authenticator (E : Fido.Env) : Hid.Upper Fido.World where
  ctap := Fido.Ctap.handleMessage E
  u2f := Fido.U2f.handleMessage E

end VF.Whole
