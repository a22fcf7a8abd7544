import Verif.Props.Usb
import Verif.Model.Mac
import Verif.Spec.Enumerate

/-!
# Property C113: a host finds a FIDO device
-/

namespace VF

open Usb Spec.Usb Spec

variable {K : Type} (k : K)

/-- What the host reads: the answer to GET_DESCRIPTOR, for the languages and lengths it may ask with
and whatever the state of the device. -/
def Reads (type index : UInt8) (b : Bytes) : Prop :=
  ∀ (lang length : UInt16) (st : Usb.State K), askDescriptor k type index lang length st = .ok [some b]

theorem reads_of {type index : UInt8} {b : Bytes} (h : getDescriptor type index = .ok b) : Reads k type index b := by
  intro lang length st
  rw [askDescriptor_eq, h]; rfl

/-! ## Texts -/

theorem units_append (us : List UInt16) : units (us.map Util.toLE16).flatten = some (us.map UInt16.toNat) := by
  induction us with
  | nil => rfl
  | cons u us ih =>
    have e : Util.toLE16 u = [UInt8.ofNat (u.toNat % 256), UInt8.ofNat (u.toNat / 256)] := by
      simp only [Util.toLE16, List.cons.injEq, and_true]
      constructor
      · apply UInt8.toNat_inj.mp; simp
      · apply UInt8.toNat_inj.mp; simp [Nat.shiftRight_eq_div_pow]
    simp only [List.map_cons, List.flatten_cons, e, List.cons_append, List.nil_append, units, ih, Option.map_some]
    have := u.toNat_lt
    simp; omega

theorem codePoints_utf16 (c : Char) (more : List Nat) :
    codePoints ((Usb.utf16 c).map UInt16.toNat ++ more) = (codePoints more).map (c.toNat :: ·) := by
  have hc : c.toNat < 0xD800 ∨ 0xDFFF < c.toNat ∧ c.toNat < 0x110000 := c.valid
  unfold Usb.utf16
  split
  · rename_i h
    have e : (UInt16.ofNat c.toNat).toNat = c.toNat := by rw [UInt16.toNat_ofNat']; omega
    simp only [List.map_cons, List.map_nil, e, List.cons_append, List.nil_append]
    cases more with
    | nil =>
      show (if 0xD800 ≤ c.toNat ∧ c.toNat < 0xE000 then none else some [c.toNat]) = _
      rw [if_neg (by omega)]; rfl
    | cons v more => rw [codePoints, if_neg (by omega), if_neg (by omega)]
  · rename_i h
    have e1 : (UInt16.ofNat (0xD800 + (c.toNat - 0x10000) / 1024 % 1024)).toNat =
        0xD800 + (c.toNat - 0x10000) / 1024 % 1024 := by rw [UInt16.toNat_ofNat']; omega
    have e2 : (UInt16.ofNat (0xDC00 + (c.toNat - 0x10000) % 1024)).toNat = 0xDC00 + (c.toNat - 0x10000) % 1024 := by
      rw [UInt16.toNat_ofNat']; omega
    simp only [List.map_cons, List.map_nil, e1, e2, List.cons_append, List.nil_append]
    rw [codePoints, if_pos (by omega), if_pos (by omega)]
    have e3 : 0x10000 + (0xD800 + (c.toNat - 0x10000) / 1024 % 1024 - 0xD800) * 1024 +
        (0xDC00 + (c.toNat - 0x10000) % 1024 - 0xDC00) = c.toNat := by omega
    rw [e3]

/-- Every text, of whatever characters, is encoded so that a host gets it back. -/
theorem C113_texts (s : String) : text (utf16encode s) = some (s.toList.map Char.toNat) := by
  unfold text utf16encode
  rw [units_append, Option.bind_some]
  induction s.toList with
  | nil => rfl
  | cons c cs ih =>
    rw [List.map_cons, List.flatten_cons, List.map_append, codePoints_utf16, ih]; rfl

example : text (utf16encode "é𝄞") = some [0xE9, 0x1D11E] := by decide +kernel

/-! ## The device, its configuration, its texts -/

/-- The device descriptor and the configuration, in every state and however asked for: USB 1.1, the
class left to the interfaces, one configuration with one interface, of class HID, which has an
interrupt endpoint 1 to the host and an interrupt endpoint 2 from the host, both with packets of 64
bytes. -/
theorem C113_device (index : UInt8) :
    ∃ b c d conf, Reads k device index b ∧ Reads k configuration index c ∧
      readDevice b = some d ∧ readConfiguration c = some conf ∧
      d.usb = 0x0110 ∧ d.cls = 0 ∧ d.packet = 64 ∧ d.configurations = 1 ∧
      conf.selfPowered = true ∧
      ∃ i, conf.interfaces = [i] ∧ i.number = 0 ∧ i.alternate = 0 ∧ i.cls = hidClass ∧ i.subclass = 0 ∧
        i.endpoints = [⟨1, true, interrupt, 64⟩, ⟨2, false, interrupt, 64⟩] := by
  refine ⟨deviceDescriptor, configurationAnswer, (readDevice deviceDescriptor).get (by decide +kernel),
    (readConfiguration configurationAnswer).get (by decide +kernel), reads_of k rfl, reads_of k rfl,
    by simp, by simp, by decide +kernel, by decide +kernel, by decide +kernel, by decide +kernel, by decide +kernel,
    ((readConfiguration configurationAnswer).get (by decide +kernel)).interfaces.head (by decide +kernel),
    by decide +kernel, by decide +kernel, by decide +kernel, by decide +kernel, by decide +kernel, by decide +kernel⟩

/-- Every text the descriptors name by its number is there to be read, in the one language the
device lists (English of the USA). -/
theorem C113_texts_named {index : UInt8} {b c : Bytes} {d : DeviceInfo} {conf : Spec.Usb.Configuration} {i : Interface}
    (hb : Reads k device index b) (hc : Reads k configuration index c) (hd : readDevice b = some d)
    (hconf : readConfiguration c = some conf) (hi : i ∈ conf.interfaces) :
    (∃ l, Reads k string 0 l ∧ readLanguages l = some [0x0409]) ∧
    ∀ p ∈ [(d.manufacturerText, "No Company"), (d.productText, "Virtual FIDO"), (d.serialText, "No Serial Number"),
        (conf.text, "String 4"), (i.text, "Default Interface")],
      ∃ t, Reads k string (UInt8.ofNat p.1) t ∧ readString t = some (p.2.toList.map Char.toNat) := by
  have eb : b = deviceDescriptor := by
    have := hb 0 0 .init
    rw [reads_of k (type := device) (index := index) (b := deviceDescriptor) rfl] at this
    simpa using this.symm
  have ec : c = configurationAnswer := by
    have := hc 0 0 .init
    rw [reads_of k (type := configuration) (index := index) (b := configurationAnswer) rfl] at this
    simpa using this.symm
  subst eb; subst ec
  have ed : d = (readDevice deviceDescriptor).get (by decide +kernel) := by
    apply Option.some.inj; rw [← hd]; simp
  have ef : conf = (readConfiguration configurationAnswer).get (by decide +kernel) := by
    apply Option.some.inj; rw [← hconf]; simp
  subst ed; subst ef
  have ei : i = ((readConfiguration configurationAnswer).get (by decide +kernel)).interfaces.head (by decide +kernel) := by
    have e : ((readConfiguration configurationAnswer).get (by decide +kernel)).interfaces =
      [((readConfiguration configurationAnswer).get (by decide +kernel)).interfaces.head (by decide +kernel)] := by
      decide +kernel
    rw [e] at hi
    simpa using hi
  subst ei
  have at' : ∀ (j : UInt8) (t : Bytes) (s : String), getDescriptor string j = .ok t →
      readString t = some (s.toList.map Char.toNat) →
      ∃ t, Reads k string j t ∧ readString t = some (s.toList.map Char.toNat) := fun j t s h1 h2 => ⟨t, reads_of k h1, h2⟩
  refine ⟨⟨_, reads_of k rfl, by decide +kernel⟩, ?_⟩
  intro p hp
  simp only [List.mem_cons, List.not_mem_nil, or_false] at hp
  rcases hp with rfl | rfl | rfl | rfl | rfl
  · exact at' 1 _ _ rfl (by decide +kernel)
  · exact at' 2 _ _ rfl (by decide +kernel)
  · exact at' 3 _ _ rfl (by decide +kernel)
  · exact at' 4 _ _ rfl (by decide +kernel)
  · exact at' 5 _ _ rfl (by decide +kernel)

/-! ## The endpoints announced are the ones served -/

/-- Besides endpoint 0 the device serves exactly the endpoints its configuration announces, in every
state and whatever the setup bytes: a transfer on the one from the host hands the data to the FIDO
device and is finished at once; one on the other hands nothing on.  A transfer on any other endpoint
gets no answer and changes nothing. -/
theorem C113_endpoints {index : UInt8} {c : Bytes} {conf : Spec.Usb.Configuration}
    (hc : Reads k configuration index c) (hconf : readConfiguration c = some conf)
    (id ep : UInt32) (bm rq : UInt8) (v i l : UInt16) (data : Bytes) (st : Usb.State K) (h0 : ep ≠ 0) :
    let r := handleMessage k id ep (setup bm rq v i l) data st
    (∀ f ∈ conf.interfaces, ∀ e ∈ f.endpoints, e.number = ep.toNat →
      r.1.isPanic = false ∧
      (e.toHost = false → r = (.ok [none], { st with delivered := st.delivered ++ [data] })) ∧
      (e.toHost = true → r.2.delivered = st.delivered)) ∧
    ((∀ f ∈ conf.interfaces, ∀ e ∈ f.endpoints, e.number ≠ ep.toNat) → r.1.isPanic = true ∧ r.2 = st) := by
  have ec : c = configurationAnswer := by
    have := hc 0 0 .init
    rw [reads_of k (type := configuration) (index := index) (b := configurationAnswer) rfl] at this
    simpa using this.symm
  subst ec
  have ei : conf.interfaces.map (·.endpoints) = [[⟨1, true, interrupt, 64⟩, ⟨2, false, interrupt, 64⟩]] := by
    have ef : conf = (readConfiguration configurationAnswer).get (by decide +kernel) := by
      apply Option.some.inj; rw [← hconf]; simp
    rw [ef]; decide +kernel
  have en : ∀ f ∈ conf.interfaces, f.endpoints = [⟨1, true, interrupt, 64⟩, ⟨2, false, interrupt, 64⟩] := by
    intro f hf
    have : f.endpoints ∈ conf.interfaces.map (·.endpoints) := List.mem_map_of_mem hf
    rw [ei] at this
    simpa using this
  have ex : ∃ f, f ∈ conf.interfaces := by
    cases h : conf.interfaces with
    | nil => rw [h] at ei; simp at ei
    | cons f _ => exact ⟨f, by simp⟩
  have num : ∀ n : Nat, n < 4294967296 → ep.toNat = n → ep = UInt32.ofNat n := by
    intro n hn h; apply UInt32.toNat_inj.mp; rw [h]; simp; omega
  refine ⟨?_, ?_⟩
  · intro f hf e he hn
    rw [en f hf] at he
    simp only [List.mem_cons, List.not_mem_nil, or_false] at he
    rcases he with rfl | rfl
    · have := num 1 (by omega) hn.symm
      subst this
      have : handleMessage k id (UInt32.ofNat 1) (setup bm rq v i l) data st =
          (.ok (match (Buf.request id k st.buf).2 with | some r => [some r] | none => []),
            { st with buf := (Buf.request id k st.buf).1, timers := st.timers ++ [(id, k)] }) := by
        unfold handleMessage
        rw [readSetup_setup, Go.lift_ok_bind, if_neg (by decide), if_pos (by decide)]
        rcases h : (Buf.request id k st.buf).2 with _ | r
        · simp only [Go.get, Go.modify, bind, Go.bind, h]; rfl
        · simp only [Go.get, Go.modify, bind, Go.bind, h]; rfl
      rw [this]
      exact ⟨rfl, (nomatch ·), fun _ => rfl⟩
    · have := num 2 (by omega) hn.symm
      subst this
      have : handleMessage k id (UInt32.ofNat 2) (setup bm rq v i l) data st =
          (.ok [none], { st with delivered := st.delivered ++ [data] }) := by
        unfold handleMessage
        rw [readSetup_setup, Go.lift_ok_bind, if_neg (by decide), if_neg (by decide), if_pos (by decide)]
        rfl
      rw [this]
      exact ⟨rfl, fun _ => rfl, (nomatch ·)⟩
  · intro hno
    obtain ⟨f, hf⟩ := ex
    have n1 := hno f hf ⟨1, true, interrupt, 64⟩ (by rw [en f hf]; simp)
    have n2 := hno f hf ⟨2, false, interrupt, 64⟩ (by rw [en f hf]; simp)
    have h1 : ep ≠ 1 := by rintro rfl; exact n1 rfl
    have h2 : ep ≠ 2 := by rintro rfl; exact n2 rfl
    simp only [handleMessage, readSetup_setup]
    rw [Go.lift_ok_bind, if_neg h0, if_neg h1, if_neg h2]
    exact ⟨rfl, rfl⟩

/-! ## The report descriptor -/

theorem askReportDescriptor_eq (index length : UInt16) (st : Usb.State K) :
    askReportDescriptor k index length st = .ok [some hidReport] := by
  unfold askReportDescriptor handleMessage
  rw [readSetup_setup, Go.lift_ok_bind]
  have : handleControlMessage ⟨0x81, 6, 0x2200, index, length⟩ = .ok (some hidReport) := by
    simp only [handleControlMessage, Setup.recipient, show (0x81 : UInt8) &&& 0b1111 = 1 from by decide]
    rw [if_neg (by decide), if_pos trivial]
    have t : (getDescriptorTypeAndIndex 0x2200).1 = 34 := by decide
    simp only [handleInterfaceRequest]
    rw [if_neg (by decide), if_neg (by decide), if_pos trivial, if_pos t]
  rw [if_pos rfl, this]; rfl

/-- What is said of a report descriptor: read as HID says, it announces a FIDO device with input
reports and output reports of 64 bytes and nothing else; read as unsigned numbers the values go from
0 to 255. -/
def AnnouncesFido (report : Bytes) : Prop :=
  ∃ i o, Hid.fields report = some [i, o] ∧ Hid.Fido .input Hid.reportIn 64 i ∧ Hid.Fido .output Hid.reportOut 64 o ∧
    ∀ f ∈ [i, o], Hid.unsigned f.minimum = 0 ∧ Hid.unsigned f.maximum = 255

theorem hidReport_fido : AnnouncesFido hidReport := by
  refine ⟨((Hid.fields hidReport).get (by decide +kernel)).head (by decide +kernel),
    ((Hid.fields hidReport).get (by decide +kernel)).getLast (by decide +kernel), ?_,
    by decide +kernel, by decide +kernel, by decide +kernel⟩
  have e : ((Hid.fields hidReport).get (by decide +kernel)) =
    [((Hid.fields hidReport).get (by decide +kernel)).head (by decide +kernel),
     ((Hid.fields hidReport).get (by decide +kernel)).getLast (by decide +kernel)] := by decide +kernel
  rw [← e]; simp

/-- Over USB/IP the report descriptor, in every state and however asked for, announces a FIDO device;
its reports are as long as a packet of the endpoints. -/
theorem C113_report_descriptor (index length : UInt16) (st : Usb.State K) :
    ∃ report, askReportDescriptor k index length st = .ok [some report] ∧ AnnouncesFido report :=
  ⟨hidReport, askReportDescriptor_eq k index length st, hidReport_fido⟩

/-- On macOS the descriptor the driver gives the system announces the same. -/
theorem C113_report_descriptor_mac : AnnouncesFido Mac.reportDescriptor := hidReport_fido

/-- HID has the logical minimum and maximum be signed numbers.  Read so, the maximum is -1 and below
the minimum: 255 would have to be written with two bytes.  (Hosts that take the maximum to be unsigned
when the minimum is not negative, as Linux does, see 255.) -/
theorem C113_logical_maximum_refuted (index length : UInt16) (st : Usb.State K) :
    ∃ report fs, askReportDescriptor k index length st = .ok [some report] ∧ Hid.fields report = some fs ∧ fs ≠ [] ∧
      ∀ f ∈ fs, Hid.signed f.minimum = 0 ∧ Hid.signed f.maximum = -1 := by
  refine ⟨hidReport, (Hid.fields hidReport).get (by decide +kernel), askReportDescriptor_eq k index length st, by simp,
    by decide +kernel, by decide +kernel⟩

/-- The configuration has the number 0, which in SET_CONFIGURATION stands for "not configured" (USB
2.0, 9.4.7): no request of the host can name it. -/
theorem C113_configuration_number_refuted (index : UInt8) :
    ∃ c conf, Reads k configuration index c ∧ readConfiguration c = some conf ∧ conf.value = 0 :=
  ⟨configurationAnswer, (readConfiguration configurationAnswer).get (by decide +kernel), reads_of k rfl, by simp,
    by decide +kernel⟩

/-- What the server says of the device when it is imported (and would say in the device list) agrees
with the descriptors in vendor, product, class, number and value of the configuration and number of
interfaces; the speed is full speed. -/
theorem C113_summary (index : UInt8) :
    ∃ b c d conf, Reads k device index b ∧ Reads k configuration index c ∧
      readDevice b = some d ∧ readConfiguration c = some conf ∧
      let s := (Usb.device k).summary
      s.idVendor.toNat = d.vendor ∧ s.idProduct.toNat = d.product ∧ s.deviceClass.toNat = d.cls ∧
      s.numConfigurations.toNat = d.configurations ∧ s.configurationValue.toNat = conf.value ∧
      s.numInterfaces.toNat = conf.interfaces.length ∧ s.speed = 2 := by
  refine ⟨deviceDescriptor, configurationAnswer, (readDevice deviceDescriptor).get (by decide +kernel),
    (readConfiguration configurationAnswer).get (by decide +kernel), reads_of k rfl, reads_of k rfl,
    by simp, by simp, ?_⟩
  show summary.idVendor.toNat = _ ∧ summary.idProduct.toNat = _ ∧ summary.deviceClass.toNat = _ ∧
    summary.numConfigurations.toNat = _ ∧ summary.configurationValue.toNat = _ ∧ summary.numInterfaces.toNat = _ ∧
    summary.speed = 2
  decide +kernel

/-- The release number differs: 1 in the descriptor, 0 in what the server says. -/
theorem C113_release_refuted (index : UInt8) :
    ∃ b d, Reads k device index b ∧ readDevice b = some d ∧ d.release = 1 ∧ (Usb.device k).summary.bcdDevice = 0 :=
  ⟨deviceDescriptor, (readDevice deviceDescriptor).get (by decide +kernel), reads_of k rfl, by simp,
    by decide +kernel, rfl⟩

end VF
