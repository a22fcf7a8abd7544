import Verif.Model.Usb
import Verif.Spec.Usb
import Verif.Proofs.UsbIp

/-!
# Properties C27, C28 (and C74, C75): the USB device
-/

namespace VF

open Usb

variable {K : Type} (k : K)

/-! ## C27 -/

/-- A standard GET_DESCRIPTOR request to the device, as the host sends it on endpoint 0; the result
is what the device hands to the completion callback. -/
def askDescriptor (type index : UInt8) (lang length : UInt16) (st : Usb.State K) : Res (List (Option Bytes)) :=
  (handleMessage k 0 0 (Spec.Usb.setup 0x80 6 (UInt16.ofNat (type.toNat * 256 + index.toNat)) lang length) [] st).1

/-- GET_DESCRIPTOR for the report descriptor, sent to the interface. -/
def askReportDescriptor (index length : UInt16) (st : Usb.State K) : Res (List (Option Bytes)) :=
  (handleMessage k 0 0 (Spec.Usb.setup 0x81 6 0x2200 index length) [] st).1

theorem readSetup_setup (bm rq : UInt8) (v i l : UInt16) :
    readSetup (Spec.Usb.setup bm rq v i l) = .ok ⟨bm, rq, v, i, l⟩ := by
  have e : Util.readLE16 (le16 l) = .ok (l, []) := by simpa using Util.readLE16_le16 l []
  simp [Spec.Usb.setup, readSetup, e]

theorem typeAndIndex (type index : UInt8) :
    getDescriptorTypeAndIndex (UInt16.ofNat (type.toNat * 256 + index.toNat)) = (type, index) := by
  have h1 := type.toNat_lt; have h2 := index.toNat_lt
  simp only [getDescriptorTypeAndIndex, Prod.mk.injEq]
  have e : (UInt16.ofNat (type.toNat * 256 + index.toNat)).toNat = type.toNat * 256 + index.toNat := by
    rw [UInt16.toNat_ofNat']; omega
  constructor
  · apply UInt8.toNat_inj.mp
    simp [e, Nat.shiftRight_eq_div_pow]; omega
  · apply UInt8.toNat_inj.mp
    have m := Nat.and_two_pow_sub_one_eq_mod index.toNat 8
    simp only [show (2 ^ 8 - 1 : Nat) = 255 from rfl] at m
    simp [m]

theorem askDescriptor_eq (type index : UInt8) (lang length : UInt16) (st : Usb.State K) :
    askDescriptor k type index lang length st = (getDescriptor type index >>= fun d => .ok [some d]) := by
  unfold askDescriptor handleMessage
  rw [readSetup_setup, Go.lift_ok_bind]
  simp only [handleControlMessage, Setup.recipient, if_true, handleDeviceRequest, typeAndIndex]
  simp only [show (0x80 : UInt8) &&& 15 = 0 from by decide, if_true]
  rcases getDescriptor type index with d | c <;> rfl

/-- What a consistent answer to GET_DESCRIPTOR is: it splits into descriptors of the lengths they
announce, the first being of the type asked for; alone, unless it is a configuration, whose total
length is the length of the answer, and which is followed by as many interfaces as it announces, as
many endpoints as those announce, and one HID descriptor announcing the length of the report
descriptor. -/
def Consistent (type : UInt8) (reportLength : Nat) (answer : Bytes) : Prop :=
  ∃ first more, Spec.Usb.split answer = some ((type, first) :: more) ∧
    if type = Spec.Usb.configuration then
      Spec.Usb.word first 2 = answer.length ∧
      Spec.Usb.count Spec.Usb.interface more = (first.getD 4 0).toNat ∧
      Spec.Usb.count Spec.Usb.endpoint more =
        ((more.filter (·.1 == Spec.Usb.interface)).map fun d => (d.2.getD 4 0).toNat).sum ∧
      Spec.Usb.count Spec.Usb.hid more = 1 ∧
      ∀ d ∈ more, d.1 = Spec.Usb.hid → d.2.getD 5 0 = 1 ∧ d.2.getD 6 0 = Spec.Usb.hidReport ∧
        Spec.Usb.word d.2 7 = reportLength
    else more = []

instance (type : UInt8) (n : Nat) (b : Bytes) : Decidable (Consistent type n b) := by
  unfold Consistent
  rcases h : Spec.Usb.split b with _ | _ | ⟨⟨t, first⟩, more⟩
  · exact isFalse (by simp)
  · exact isFalse (by simp)
  · by_cases ht : t = type
    · subst ht
      exact decidable_of_iff (if t = Spec.Usb.configuration then
          Spec.Usb.word first 2 = b.length ∧
          Spec.Usb.count Spec.Usb.interface more = (first.getD 4 0).toNat ∧
          Spec.Usb.count Spec.Usb.endpoint more =
            ((more.filter (·.1 == Spec.Usb.interface)).map fun d => (d.2.getD 4 0).toNat).sum ∧
          Spec.Usb.count Spec.Usb.hid more = 1 ∧
          ∀ d ∈ more, d.1 = Spec.Usb.hid → d.2.getD 5 0 = 1 ∧ d.2.getD 6 0 = Spec.Usb.hidReport ∧
            Spec.Usb.word d.2 7 = n
        else more = []) (by
          constructor
          · intro h; exact ⟨first, more, rfl, h⟩
          · rintro ⟨f, m, e, h⟩
            simp only [Option.some.injEq, List.cons.injEq, Prod.mk.injEq] at e
            obtain ⟨⟨-, e1⟩, e2⟩ := e
            subst e1; subst e2; exact h)
    · exact isFalse (by simp [ht])

/-- Every descriptor the device returns, for every type, index, language and length asked for, in
every state, is consistent; and the report descriptor it returns has the length announced. -/
theorem C27_descriptors_consistent (type index : UInt8) (lang length : UInt16) (st : Usb.State K) :
    ∃ report, askReportDescriptor k lang length st = .ok [some report] ∧
      ∀ answer, askDescriptor k type index lang length st = .ok answer →
        ∃ b, answer = [some b] ∧ Consistent type report.length b := by
  refine ⟨hidReport, ?_, ?_⟩
  · unfold askReportDescriptor handleMessage
    rw [readSetup_setup, Go.lift_ok_bind]
    have : handleControlMessage ⟨0x81, 6, 0x2200, lang, length⟩ = .ok (some hidReport) := by
      simp only [handleControlMessage, Setup.recipient, show (0x81 : UInt8) &&& 0b1111 = 1 from by decide]
      rw [if_neg (by decide), if_pos trivial]
      have t : (getDescriptorTypeAndIndex 0x2200).1 = 34 := by decide
      simp only [handleInterfaceRequest]
      rw [if_neg (by decide), if_neg (by decide), if_pos trivial, if_pos t]
    rw [if_pos rfl, this]; rfl
  · intro answer ha
    rw [askDescriptor_eq] at ha
    rcases hg : getDescriptor type index with d | c
    · rw [hg] at ha
      simp only [Res.bind_ok, Res.ok.injEq] at ha
      refine ⟨d, ha.symm, ?_⟩
      unfold getDescriptor at hg
      split at hg
      · rename_i h; subst h
        simp only [Res.ok.injEq] at hg; subst hg; decide +kernel
      · split at hg
        · rename_i h; subst h
          simp only [Res.ok.injEq] at hg; subst hg; decide +kernel
        · split at hg
          · rename_i h; subst h
            unfold getStringDescriptor at hg
            repeat' split at hg
            all_goals first
              | (simp only [Res.bind_ok, Res.ok.injEq] at hg; subst hg; decide +kernel)
              | cases hg
          · cases hg
    · rw [hg] at ha; cases ha

/-- The answers exist: device, configuration and the strings 0 to 5 are answered, nothing else is. -/
theorem C27_answered_iff (type index : UInt8) (lang length : UInt16) (st : Usb.State K) :
    (askDescriptor k type index lang length st).isPanic = false ↔
      type = Spec.Usb.device ∨ type = Spec.Usb.configuration ∨ (type = Spec.Usb.string ∧ index ≤ 5) := by
  rw [askDescriptor_eq]
  have key : (getDescriptor type index >>= fun d => Res.ok [some d]).isPanic = (getDescriptor type index).isPanic := by
    rcases getDescriptor type index with d | c <;> rfl
  rw [key]
  unfold getDescriptor Spec.Usb.device Spec.Usb.configuration Spec.Usb.string
  split
  · simp_all
  · split
    · simp_all
    · split
      · rename_i h1 h2 h3
        subst h3
        unfold getStringDescriptor
        have : index ≤ 5 ↔ (index = 0 ∨ index = 1 ∨ index = 2 ∨ index = 3 ∨ index = 4 ∨ index = 5) := by
          simp only [UInt8.le_iff_toNat_le, ← UInt8.toNat_inj]
          simp; omega
        rw [this]
        repeat' split
        all_goals simp_all
      · simp_all

example : (askDescriptor () 2 0 0 9 (Usb.State.init : Usb.State Unit)).isPanic = false := by decide

/-! ## C28 -/

set_option maxRecDepth 100000 in
theorem setters_facts : ∀ n : Fin 256, ∀ v : Fin 16,
    let s : Setup := ⟨UInt8.ofNat n.val, 0, 0, 0, 0⟩
    let x := UInt8.ofNat v.val
    (v.val < 2 → (s.setDirection x).direction = x ∧ (s.setDirection x).requestClass = s.requestClass ∧
      (s.setDirection x).recipient = s.recipient) ∧
    (v.val < 4 → (s.setRequestClass x).requestClass = x ∧ (s.setRequestClass x).direction = s.direction ∧
      (s.setRequestClass x).recipient = s.recipient) ∧
    ((s.setRecipient x).recipient = x ∧ (s.setRecipient x).direction = s.direction ∧
      (s.setRecipient x).requestClass = s.requestClass) := by decide +kernel

/-- Setting one of direction (0-1), class (0-3), recipient (0-15) makes its getter return that value
and changes neither of the other two nor any other field, for every setup packet. -/
theorem C28_setters (s : Setup) (x : UInt8) :
    (x < 2 → (s.setDirection x).direction = x ∧ (s.setDirection x).requestClass = s.requestClass ∧
      (s.setDirection x).recipient = s.recipient) ∧
    (x < 4 → (s.setRequestClass x).requestClass = x ∧ (s.setRequestClass x).direction = s.direction ∧
      (s.setRequestClass x).recipient = s.recipient) ∧
    (x < 16 → (s.setRecipient x).recipient = x ∧ (s.setRecipient x).direction = s.direction ∧
      (s.setRecipient x).requestClass = s.requestClass) ∧
    (∀ f ∈ [s.setDirection x, s.setRequestClass x, s.setRecipient x],
      f.bRequest = s.bRequest ∧ f.wValue = s.wValue ∧ f.wIndex = s.wIndex ∧ f.wLength = s.wLength) := by
  have hb : (⟨s.bmRequestType.toNat, s.bmRequestType.toNat_lt⟩ : Fin 256).val = s.bmRequestType.toNat := rfl
  refine ⟨fun h => ?_, fun h => ?_, fun h => ?_, by simp [Setup.setDirection, Setup.setRequestClass, Setup.setRecipient]⟩
  · have h' : x.toNat < 2 := by simpa [UInt8.lt_iff_toNat_lt] using h
    have := (setters_facts ⟨s.bmRequestType.toNat, s.bmRequestType.toNat_lt⟩ ⟨x.toNat, by omega⟩).1 h'
    simpa [Setup.setDirection, Setup.direction, Setup.requestClass, Setup.recipient] using this
  · have h' : x.toNat < 4 := by simpa [UInt8.lt_iff_toNat_lt] using h
    have := (setters_facts ⟨s.bmRequestType.toNat, s.bmRequestType.toNat_lt⟩ ⟨x.toNat, by omega⟩).2.1 h'
    simpa [Setup.setRequestClass, Setup.direction, Setup.requestClass, Setup.recipient] using this
  · have h' : x.toNat < 16 := by simpa [UInt8.lt_iff_toNat_lt] using h
    have := (setters_facts ⟨s.bmRequestType.toNat, s.bmRequestType.toNat_lt⟩ ⟨x.toNat, by omega⟩).2.2
    simpa [Setup.setRecipient, Setup.direction, Setup.requestClass, Setup.recipient] using this

example : (1 : UInt8) < 2 ∧ (Setup.mk 0x21 10 0 0 0).direction = 0 := by decide

/-- Every setup packet is read with its fields where USB puts them. -/
theorem C28_fields (bm rq : UInt8) (v i l : UInt16) :
    readSetup (Spec.Usb.setup bm rq v i l) = .ok ⟨bm, rq, v, i, l⟩ ∧
    (Setup.mk bm rq v i l).direction.toNat = Spec.Usb.direction bm := by
  refine ⟨readSetup_setup bm rq v i l, ?_⟩
  have := bm.toNat_lt
  simp [Setup.direction, Spec.Usb.direction, Nat.shiftRight_eq_div_pow]
  omega

set_option maxRecDepth 100000 in
theorem class_facts : ∀ n : Fin 256,
    let bm := UInt8.ofNat n.val
    (((bm >>> 4) &&& 0b11).toNat = Spec.Usb.type bm ↔
      bm.toNat / 64 % 2 = bm.toNat / 32 % 2 ∧ bm.toNat / 32 % 2 = bm.toNat / 16 % 2) ∧
    ((bm &&& 0b1111).toNat = Spec.Usb.recipient bm ↔ bm.toNat / 16 % 2 = 0) := by decide +kernel

/-- The class is not the one USB defines: SET_IDLE (0x21) is a class request (1), the code sees 2.
The two agree exactly when bits 6, 5 and 4 are equal, and the recipients agree exactly when bit 4 is
clear. -/
theorem C28_class_refuted :
    (Setup.mk 0x21 10 0 0 0).requestClass.toNat ≠ Spec.Usb.type 0x21 ∧
    ∀ s : Setup, (s.requestClass.toNat = Spec.Usb.type s.bmRequestType ↔
        s.bmRequestType.toNat / 64 % 2 = s.bmRequestType.toNat / 32 % 2 ∧
        s.bmRequestType.toNat / 32 % 2 = s.bmRequestType.toNat / 16 % 2) ∧
      (s.recipient.toNat = Spec.Usb.recipient s.bmRequestType ↔ s.bmRequestType.toNat / 16 % 2 = 0) := by
  refine ⟨by decide, fun s => ?_⟩
  have := class_facts ⟨s.bmRequestType.toNat, s.bmRequestType.toNat_lt⟩
  simp only [UInt8.ofNat_toNat] at this
  exact this

/-! ## C74 -/

/-- The reports among a client's commands: what it transfers on endpoint 2 (an IN transfer there
counts as a report of zeros). -/
def reportOf : Spec.UsbIp.Cmd → Option Bytes
  | .out _ _ ep _ _ _ _ _ data => if ep = 2 then some data else none
  | .inp _ _ ep _ length _ _ _ _ => if ep = 2 then some (List.replicate length.toNat 0) else none
  | .unlink .. => none

theorem readSetup_ok (b : Bytes) (h : b.length = 8) : ∃ s, readSetup b = .ok s := by
  match b, h with
  | [a, b, c, d, e, f, g, h], _ => exact ⟨_, rfl⟩

theorem handleMessage_delivered (id ep : UInt32) (setup data : Bytes) (h8 : setup.length = 8) (st : Usb.State K) :
    (handleMessage k id ep setup data st).2.delivered = st.delivered ++ (if ep = 2 then [data] else []) ∧
    (ep = 2 → handleMessage k id ep setup data st = (.ok [none], { st with delivered := st.delivered ++ [data] })) := by
  obtain ⟨s, hs⟩ := readSetup_ok setup h8
  unfold handleMessage
  rw [hs, Go.lift_ok_bind]
  by_cases h0 : ep = 0
  · subst h0
    rw [if_pos rfl, if_neg (by decide)]
    refine ⟨?_, fun h => absurd h (by decide)⟩
    rcases handleControlMessage s with r | c <;> simp [Go.run_bind]
  · rw [if_neg h0]
    by_cases h1 : ep = 1
    · subst h1
      rw [if_pos rfl, if_neg (by decide)]
      refine ⟨?_, fun h => absurd h (by decide)⟩
      simp only [Go.get_bind_run, Go.modify_bind_run]
      rcases (Buf.request id k st.buf).2 with _ | r <;> simp
    · rw [if_neg h1]
      by_cases h2 : ep = 2
      · subst h2
        rw [if_pos rfl, if_pos rfl]
        exact ⟨rfl, fun _ => rfl⟩
      · rw [if_neg h2, if_neg h2]
        exact ⟨by simp, fun h => absurd h h2⟩

/-- For every sequence of commands a client sends to the imported device, the reports handed to the
FIDO layer are exactly those the client transferred on endpoint 2, each once, unchanged, and started
in that order; and each such transfer is acknowledged at once. -/
theorem C74_reports_delivered (net : UsbIp.Net) (hf : UsbIp.FullReads net) (cmds : List Spec.UsbIp.Cmd)
    (hw : ∀ cmd ∈ cmds, cmd.WellFormed) (rest : Bytes) (c : UsbIp.Conn (Usb.State K))
    (hs : c.stream = (cmds.map Spec.UsbIp.Cmd.wire).flatten ++ rest) :
    (UsbIp.handleCommands net (Usb.device k) cmds.length c).dev.delivered =
      c.dev.delivered ++ cmds.filterMap reportOf ∧
    ∀ seq devid flags f p i setup data cmds', cmds = .out seq devid 2 flags f p i setup data :: cmds' →
      (UsbIp.handleCommands net (Usb.device k) 1 c).out = c.out ++ Spec.UsbIp.retSubmit seq data.length [] := by
  constructor
  · induction cmds generalizing c with
    | nil => simp [UsbIp.handleCommands]
    | cons cmd cmds ih =>
      have hstep := UsbIp.command_step net (Usb.device k) cmd (hw cmd (by simp))
        ((cmds.map Spec.UsbIp.Cmd.wire).flatten ++ rest) c (by rw [hs]; simp) (fun n => hf _ n)
      have := ih (fun x hx => hw x (by simp [hx])) (UsbIp.try' (UsbIp.command net (Usb.device k)) c) (by rw [hstep])
      simp only [List.length_cons, UsbIp.handleCommands]
      rw [this, hstep]
      have hwc := hw cmd (by simp)
      simp only
      cases cmd with
      | out seq devid ep flags f p i setup data =>
        have h := (handleMessage_delivered k seq ep setup data hwc.1 c.dev).1
        have e : (UsbIp.effect (Usb.device k) (.out seq devid ep flags f p i setup data) c.dev).2 =
            (handleMessage k seq ep setup data c.dev).2 := by
          simp only [UsbIp.effect, Usb.device]
          rcases handleMessage k seq ep setup data c.dev with ⟨r, d⟩; cases r <;> rfl
        rw [e, h]
        by_cases h2 : ep = 2 <;> simp [reportOf, h2]
      | inp seq devid ep flags length f p i setup =>
        have h := (handleMessage_delivered k seq ep setup (List.replicate length.toNat 0) hwc c.dev).1
        have e : (UsbIp.effect (Usb.device k) (.inp seq devid ep flags length f p i setup) c.dev).2 =
            (handleMessage k seq ep setup (List.replicate length.toNat 0) c.dev).2 := by
          simp only [UsbIp.effect, Usb.device]
          rcases handleMessage k seq ep setup (List.replicate length.toNat 0) c.dev with ⟨r, d⟩; cases r <;> rfl
        rw [e, h]
        by_cases h2 : ep = 2 <;> simp [reportOf, h2]
      | unlink seq devid dir ep victim padding =>
        have e : (UsbIp.effect (Usb.device k) (.unlink seq devid dir ep victim padding) c.dev).2.delivered =
            c.dev.delivered := by
          simp [UsbIp.effect, Usb.device, removeWaitingRequest]
        rw [e, List.filterMap_cons_none rfl]
  · intro seq devid flags f p i setup data cmds' hc
    have hwc := hw (.out seq devid 2 flags f p i setup data) (by simp [hc])
    have hstep := UsbIp.command_step net (Usb.device k) (.out seq devid 2 flags f p i setup data) hwc
        ((cmds'.map Spec.UsbIp.Cmd.wire).flatten ++ rest) c (by rw [hs, hc]; simp) (fun n => hf _ n)
    have h := (handleMessage_delivered k seq 2 setup data hwc.1 c.dev).2 rfl
    show (UsbIp.try' (UsbIp.command net (Usb.device k)) c).out = _
    have e : (UsbIp.effect (Usb.device k) (.out seq devid 2 flags f p i setup data) c.dev).1 =
        Spec.UsbIp.retSubmit seq data.length [] := by
      have h' : (Usb.device k).submit seq 2 setup data c.dev = _ := h
      simp [UsbIp.effect, h']
    rw [hstep, e]

example : (UsbIp.handleCommands (fun _ n => n) (Usb.device ()) 1
    { stream := (Spec.UsbIp.Cmd.out 3 0 2 0 0 0 0 (List.replicate 8 0) [1, 2, 3]).wire, pos := 0, out := [],
      dev := (Usb.State.init : Usb.State Unit), calls := [] }).dev.delivered = [[1, 2, 3]] := by decide

/-! ## C75 -/

/-- Exactly which control requests are answered, for every setup packet: to the device
GET_DESCRIPTOR (device, configuration, strings 0-5), SET_CONFIGURATION and GET_STATUS; to the
interface SET_IDLE, SET_PROTOCOL and GET_DESCRIPTOR for the report descriptor.  Everything else is
not answered at all, and nothing but the answer changes. -/
theorem C75_control_requests (id : UInt32) (bm rq : UInt8) (v i l : UInt16) (data : Bytes) (st : Usb.State K) :
    ((handleMessage k id 0 (Spec.Usb.setup bm rq v i l) data st).1.isPanic = false ↔
      (bm.toNat % 16 = 0 ∧ (rq = 9 ∨ rq = 0 ∨
        (rq = 6 ∧ (v.toNat / 256 = 1 ∨ v.toNat / 256 = 2 ∨ (v.toNat / 256 = 3 ∧ v.toNat % 256 ≤ 5))))) ∨
      (bm.toNat % 16 = 1 ∧ (rq = 10 ∨ rq = 11 ∨ (rq = 6 ∧ v.toNat / 256 = 34)))) ∧
    (handleMessage k id 0 (Spec.Usb.setup bm rq v i l) data st).2 = st := by
  have e : handleMessage k id 0 (Spec.Usb.setup bm rq v i l) data st =
      ((handleControlMessage ⟨bm, rq, v, i, l⟩ >>= fun r => Res.ok [r]), st) := by
    unfold handleMessage
    rw [readSetup_setup, Go.lift_ok_bind, if_pos rfl]
    rcases handleControlMessage ⟨bm, rq, v, i, l⟩ with r | c <;> rfl
  rw [e]
  refine ⟨?_, rfl⟩
  have key : (handleControlMessage ⟨bm, rq, v, i, l⟩ >>= fun r => Res.ok [r]).isPanic =
      (handleControlMessage ⟨bm, rq, v, i, l⟩).isPanic := by
    rcases handleControlMessage ⟨bm, rq, v, i, l⟩ with d | c <;> rfl
  rw [key]
  have hv := v.toNat_lt
  have ht : (getDescriptorTypeAndIndex v).1.toNat = v.toNat / 256 := by
    simp [getDescriptorTypeAndIndex, Nat.shiftRight_eq_div_pow]; omega
  have hi : (getDescriptorTypeAndIndex v).2.toNat = v.toNat % 256 := by
    have m := Nat.and_two_pow_sub_one_eq_mod (v.toNat % 256) 8
    simp only [show (2 ^ 8 - 1 : Nat) = 255 from rfl] at m
    simp [getDescriptorTypeAndIndex, m]
  have hr : (Setup.mk bm rq v i l).recipient.toNat = bm.toNat % 16 := by
    have m := Nat.and_two_pow_sub_one_eq_mod bm.toNat 4
    simp only [show (2 ^ 4 - 1 : Nat) = 15 from rfl] at m
    simp [Setup.recipient, m]
  have hg : (getDescriptor (getDescriptorTypeAndIndex v).1 (getDescriptorTypeAndIndex v).2).isPanic = false ↔
      (v.toNat / 256 = 1 ∨ v.toNat / 256 = 2 ∨ (v.toNat / 256 = 3 ∧ v.toNat % 256 ≤ 5)) := by
    have := C27_answered_iff k (getDescriptorTypeAndIndex v).1 (getDescriptorTypeAndIndex v).2 0 0 st
    rw [askDescriptor_eq] at this
    have k2 : ∀ x : Res Bytes, (x >>= fun d => Res.ok [some d]).isPanic = x.isPanic := by
      intro x; rcases x with d | c <;> rfl
    rw [k2] at this
    rw [this]
    simp only [← UInt8.toNat_inj, UInt8.le_iff_toNat_le, ht, hi, Spec.Usb.device, Spec.Usb.configuration,
      Spec.Usb.string]
    rfl
  have ofn : ∀ (a b : UInt8), a = b ↔ a.toNat = b.toNat := fun a b => UInt8.toNat_inj.symm
  unfold handleControlMessage
  by_cases r0 : bm.toNat % 16 = 0
  · rw [if_pos (by rw [ofn, hr, r0]; rfl)]
    simp only [handleDeviceRequest]
    by_cases q6 : rq = 6
    · subst q6
      rw [if_pos rfl]
      have k2 : ∀ x : Res Bytes, (x >>= fun d => Res.ok (some d)).isPanic = x.isPanic := by
        intro x; rcases x with d | c <;> rfl
      show (getDescriptor (getDescriptorTypeAndIndex v).1 (getDescriptorTypeAndIndex v).2 >>=
          fun d => Res.ok (some d)).isPanic = false ↔ _
      rw [k2, hg]
      simp [r0]
    · rw [if_neg q6]
      by_cases q9 : rq = 9
      · simp [q9, r0]
      · rw [if_neg q9]
        by_cases q0 : rq = 0 <;> simp [q0, q6, q9, r0]
  · rw [if_neg (by rw [ofn, hr]; simpa using r0)]
    by_cases r1 : bm.toNat % 16 = 1
    · rw [if_pos (by rw [ofn, hr, r1]; rfl)]
      simp only [handleInterfaceRequest]
      by_cases q10 : rq = 10
      · simp [q10, r1]
      · rw [if_neg q10]
        by_cases q11 : rq = 11
        · simp [q11, r1]
        · rw [if_neg q11]
          by_cases q6 : rq = 6
          · subst q6
            rw [if_pos rfl]
            by_cases t : v.toNat / 256 = 34
            · rw [if_pos (by rw [ofn, ht, t]; rfl)]; simp [r1, t]
            · rw [if_neg (by rw [ofn, ht]; simpa using t)]; simp [r1, t]
          · simp [q6, q10, q11, r1]
    · rw [if_neg (by rw [ofn, hr]; simpa using r1)]
      simp [r0, r1]

/-- Linux asks for the device qualifier (type 6) and GET_INTERFACE only of high-speed devices; a
request such as GET_CONFIGURATION (8) is one that gets no answer. -/
example : (handleMessage () 1 0 (Spec.Usb.setup 0x80 8 0 0 1) [] (Usb.State.init : Usb.State Unit)).1.isPanic = true := by decide

end VF
