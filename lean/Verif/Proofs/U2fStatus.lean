import Verif.Spec.U2fStatus
import Verif.Proofs.StatusHistory
import Verif.Proofs.U2fSpec

/-!
# The outcome of U2F requests
-/

namespace VF.Fido.U2f

open Client VF.Spec.Client VF.Spec.U2fStatus
open VF.Spec.Status (Decides)

inductive ShowsRes : Res Bytes → Outcome → Prop
  | success (body : Bytes) : ShowsRes (.ok (body ++ [0x90, 0x00])) (.sw 0x9000)
  | error (s : UInt16) (h : s ≠ 0x9000) : ShowsRes (.ok (be16 s)) (.sw s)
  | crash (c : Cause) : ShowsRes (.panic c) .crash

theorem pad_upTo (n : Nat) (b : Bytes) : Util.pad (b.take n) n = upTo n b := by
  unfold Util.pad upTo
  rw [List.take_take, Nat.min_self, List.length_take]
  congr 2
  omega

/-- The reading of a request follows `Frame`. -/
theorem decodeMessage_frame (m : Bytes) :
    (∃ header data n, decodeMessage m = .ok (header, data, n) ∧
      Frame m header.command header.param1 data ∧
      ∀ ins p1 data', Frame m ins p1 data' → ins = header.command ∧ p1 = header.param1 ∧ data' = data) ∨
    (∃ c, decodeMessage m = .panic c ∧ ¬ ∃ ins p1 data, Frame m ins p1 data) := by
  match m with
  | [] => exact .inr ⟨_, rfl, by rintro ⟨_, _, _, h⟩; cases h⟩
  | [_] => exact .inr ⟨_, rfl, by rintro ⟨_, _, _, h⟩; cases h⟩
  | [_, _] => exact .inr ⟨_, rfl, by rintro ⟨_, _, _, h⟩; cases h⟩
  | [_, _, _] => exact .inr ⟨_, rfl, by rintro ⟨_, _, _, h⟩; cases h⟩
  | [cla, ins, p1, p2] =>
    exact .inl ⟨_, _, _, rfl, .header, by intro _ _ _ h; cases h; exact ⟨rfl, rfl, rfl⟩⟩
  | cla :: ins :: p1 :: p2 :: z :: buffer =>
    by_cases hz : z = 0
    · subst hz
      match buffer with
      | [] => exact .inr ⟨.checkErr, by simp [decodeMessage, Util.readBE16], by rintro ⟨_, _, _, h⟩; cases h⟩
      | [_] => exact .inr ⟨.checkErr, by simp [decodeMessage, Util.readBE16], by rintro ⟨_, _, _, h⟩; cases h⟩
      | a :: b :: body =>
        have hn : (UInt16.ofNat (256 * a.toNat + b.toNat)).toNat = 256 * a.toNat + b.toNat := by
          have ha := a.toNat_lt
          have hb := b.toNat_lt
          rw [UInt16.toNat_ofNat']
          omega
        cases body with
        | nil =>
          refine .inl ⟨⟨cla, ins, p1, p2⟩, [], _, by simp [decodeMessage, Util.readBE16]; rfl, .answerLength, ?_⟩
          intro _ _ _ h
          cases h with
          | answerLength => exact ⟨rfl, rfl, rfl⟩
          | data hb => exact absurd rfl hb
        | cons x xs =>
          by_cases hr : ((x :: xs).drop (256 * a.toNat + b.toNat)).length = 1
          · right
            have hp : ∃ c, decodeMessage (cla :: ins :: p1 :: p2 :: 0 :: a :: b :: x :: xs) = .panic c := by
              simp only [decodeMessage, Util.readBE16, Res.bind_ok, Util.bufRead, hn]
              generalize (x :: xs).drop (256 * a.toNat + b.toNat) = r at hr
              match r, hr with
              | [y], _ => exact ⟨.checkErr, by simp⟩
            obtain ⟨c, hp⟩ := hp
            refine ⟨c, hp, ?_⟩
            rintro ⟨_, _, _, h⟩
            cases h with
            | data hb hr' => exact hr' hr
          · left
            have hp : ∃ n, decodeMessage (cla :: ins :: p1 :: p2 :: 0 :: a :: b :: x :: xs) =
                .ok (⟨cla, ins, p1, p2⟩, upTo (256 * a.toNat + b.toNat) (x :: xs), n) := by
              simp only [decodeMessage, Util.readBE16, Res.bind_ok, Util.bufRead, hn, pad_upTo]
              generalize (x :: xs).drop (256 * a.toNat + b.toNat) = r at hr
              match r, hr with
              | [], _ => exact ⟨0, by simp⟩
              | u :: v :: t, _ => exact ⟨UInt16.ofNat (256 * u.toNat + v.toNat), by simp⟩
            obtain ⟨n, hp⟩ := hp
            refine ⟨_, _, n, hp, .data (by simp) hr, ?_⟩
            intro _ _ _ h
            cases h with
            | data hb hr' => exact ⟨rfl, rfl, rfl⟩
    · refine .inr ⟨.explicit, by simp [decodeMessage, hz], ?_⟩
      rintro ⟨_, _, _, h⟩
      cases h <;> exact hz rfl

theorem fields_inv {data c a h : Bytes} (f : Fields data c a h) :
    ∃ c' a' rest, ∃ len : UInt8, c'.length = 32 ∧ a'.length = 32 ∧ (rest = [] → len = 0) ∧
      data = c' ++ a' ++ len :: rest ∧ c = c' ∧ a = a' ∧ h = upTo len.toNat rest := by
  cases f with
  | mk hc ha hr => exact ⟨_, _, _, _, hc, ha, hr, rfl, rfl, rfl, rfl⟩

theorem fields_unique {data c a h c' a' h' : Bytes} (f : Fields data c a h) (f' : Fields data c' a' h') :
    c = c' ∧ a = a' ∧ h = h' := by
  obtain ⟨c1, a1, r1, l1, hc, ha, hr, hd1, rfl, rfl, rfl⟩ := fields_inv f
  obtain ⟨c2, a2, r2, l2, hc', ha', hr', hd2, rfl, rfl, rfl⟩ := fields_inv f'
  rw [hd1] at hd2
  have hd := hd2
  simp only [List.append_assoc] at hd
  obtain ⟨e1, hd⟩ := List.append_inj hd (hc.trans hc'.symm)
  obtain ⟨e2, hd⟩ := List.append_inj hd (ha.trans ha'.symm)
  obtain ⟨e3, e4⟩ := List.cons.inj hd
  subst e1 e2 e3 e4
  exact ⟨rfl, rfl, rfl⟩

theorem decodeAuthenticate_fields (data : Bytes) :
    (∃ c a h, decodeAuthenticate data = .ok (c, a, h) ∧ Fields data c a h) ∨
    (∃ q, decodeAuthenticate data = .panic q ∧ ¬ ∃ c a h, Fields data c a h) := by
  have hlen : ∀ c a h, Fields data c a h → 65 ≤ data.length := by
    rintro c a h ⟨hc, ha, -⟩
    simp only [List.length_append, List.length_cons]
    omega
  by_cases hl : 65 ≤ data.length
  · have e : data = data.take 32 ++ ((data.drop 32).take 32 ++ data.drop 64) := by
      rw [show data.drop 64 = (data.drop 32).drop 32 by rw [List.drop_drop], List.take_append_drop,
        List.take_append_drop]
    have h1 : (data.take 32).length = 32 := by rw [List.length_take]; omega
    have h2 : ((data.drop 32).take 32).length = 32 := by rw [List.length_take, List.length_drop]; omega
    have h3 : 1 ≤ (data.drop 64).length := by rw [List.length_drop]; omega
    generalize data.take 32 = c at *
    generalize (data.drop 32).take 32 = a at *
    generalize data.drop 64 = t at *
    subst e
    match t, h3 with
    | len :: rest, _ =>
      have r1 := bufRead_append c (a ++ len :: rest) (by simp)
      have r2 := bufRead_append a (len :: rest) (by simp)
      rw [h1] at r1
      rw [h2] at r2
      simp only [decodeAuthenticate, r1, Res.bind_ok, r2, Util.readLE8]
      by_cases hr : rest = []
      · subst hr
        by_cases hz : len = 0
        · subst hz
          refine .inl ⟨c, a, [], by simp [Util.bufRead], ?_⟩
          have := Fields.mk (rest := []) (len := 0) h1 h2 (fun _ => rfl)
          rw [List.append_assoc] at this
          exact this
        · have hz' : len.toNat ≠ 0 := fun h => hz (UInt8.toNat_inj.1 h)
          refine .inr ⟨.checkErr, by simp [Util.bufRead, hz'], ?_⟩
          rintro ⟨c', a', h', f⟩
          obtain ⟨c2, a2, r2, l2, hc, ha, hr, hd, rfl, rfl, rfl⟩ := fields_inv f
          simp only [List.append_assoc] at hd
          obtain ⟨e1, hd⟩ := List.append_inj hd (h1.trans hc.symm)
          obtain ⟨e2, hd⟩ := List.append_inj hd (h2.trans ha.symm)
          obtain ⟨e3, e4⟩ := List.cons.inj hd
          subst e1 e2 e3
          exact hz (hr e4.symm)
      · refine .inl ⟨c, a, upTo len.toNat rest, ?_, ?_⟩
        · simp only [Util.bufRead, List.isEmpty_iff, hr, if_false, Res.bind_ok, pad_upTo]
        · have := Fields.mk (len := len) h1 h2 (fun h => absurd h hr)
          rw [List.append_assoc] at this
          exact this
  · have hp : ∃ q, decodeAuthenticate data = .panic q := by
      unfold decodeAuthenticate
      unfold Util.bufRead
      by_cases h0 : data.isEmpty = true
      · exact ⟨.checkErr, by simp [h0]⟩
      · rw [if_neg h0, Res.bind_ok]
        dsimp only
        by_cases h1 : (data.drop 32).isEmpty = true
        · exact ⟨.checkErr, by simp [h1]⟩
        · rw [if_neg h1, Res.bind_ok]
          dsimp only
          have h2 : (data.drop 32).drop 32 = [] := by
            rw [List.drop_drop]
            exact List.drop_eq_nil_of_le (by omega)
          rw [h2]
          exact ⟨.checkErr, rfl⟩
    obtain ⟨q, hp⟩ := hp
    exact .inr ⟨q, hp, by rintro ⟨c, a, h, f⟩; exact hl (hlen c a h f)⟩

theorem register_status {E : Env} (L : Laws E) {data : Bytes} {w : World}
    (hk : aesKeyOk w.client.deviceKey = true) (hh : Healthy E w.client)
    (hat : CanAttest E w.client) :
    ∃ o, Decides (register E w data) o ∧ ShowsRes (handleRegister E data w).1 o := by
  by_cases hl : data.length = 64
  · obtain ⟨answer, w', h⟩ := register_succeeds L hl hk hh hat
    have hc := handleRegister_cases E data w
    rw [h] at hc ⊢
    cases hc with
    | nothing c n hr hn hw => cases hr
    | refused hl hk ha hr hw =>
      rw [hr]
      exact ⟨_, .next (fun h => h hl) (.here ha), .error 0x6985 (by decide)⟩
    | agreed n hl hk ha hn hw hr =>
      refine ⟨_, .next (fun h => h hl) (.next (by rw [ha]; simp) (.here trivial)), ?_⟩
      rcases hr with ⟨c, hr⟩ | ⟨cert, sig, handle, -, -, -, -, hr⟩
      · cases hr
      · rw [hr]
        exact .success _
  · refine ⟨_, .here hl, ?_⟩
    unfold handleRegister
    split
    · exact .crash _
    · rw [if_pos (by rw [List.length_drop]; omega)]
      exact .crash _

theorem finish_status {E : Env} (key : ECPriv) (application challenge : Bytes) (w : World) :
    (∃ sig, E.signEC key (E.sha256 (application ++ [1] ++ be32 w.client.authCounter ++ challenge))
        w.rnd = some sig ∧ ∃ body, (finishAuthenticate E key application challenge w).1 =
          .ok (body ++ [0x90, 0x00])) ∨
    (E.signEC key (E.sha256 (application ++ [1] ++ be32 w.client.authCounter ++ challenge))
        w.rnd = none ∧ ∃ c, (finishAuthenticate E key application challenge w).1 = .panic c) := by
  simp only [finishAuthenticate, newAuthCounter, Go.run_bind, Go.run_get, update, Go.modify,
    signWith, draw, Go.run_lift, Go.run_pure, Cose.sign, Util.concat, List.foldl, List.nil_append,
    Util.toBE32_eq, signECDSA]
  cases hs : E.signEC key (E.sha256 (application ++ [1] ++ be32 w.client.authCounter ++ challenge))
    w.rnd with
  | none => exact .inr ⟨rfl, _, rfl⟩
  | some sig => exact .inl ⟨sig, rfl, _, rfl⟩

theorem opens_iff {E : Env} {w : World} {handle plain : Bytes} {box : Box}
    (h1 : E.decodeBox handle = some box) (h2 : box.iv.length = 12)
    (h3 : E.gcmOpen w.client.deviceKey box.iv box.data = some plain) (P : Bytes → Prop) :
    Opens E w handle P ↔ P plain := by
  constructor
  · rintro ⟨box', plain', e1, -, e3, h⟩
    rw [h1] at e1
    obtain rfl := Option.some.inj e1
    rw [h3] at e3
    obtain rfl := Option.some.inj e3
    exact h
  · exact fun h => ⟨box, plain, h1, h2, h3, h⟩

theorem authenticate_status {E : Env} {data challenge application handle : Bytes} {w : World}
    (hk : aesKeyOk w.client.deviceKey = true) (control : UInt8)
    (hd : decodeAuthenticate data = .ok (challenge, application, handle)) :
    ∃ o, Decides (authenticate E w control challenge application handle) o ∧
      ShowsRes (handleAuthenticate E control data w).1 o := by
  unfold handleAuthenticate authenticate
  rw [hd, Go.lift_ok_bind]
  dsimp only
  rw [Go.get_bind_run]
  have e6A80 : (.ok (Util.toBE16 swWrongData) : Res Bytes) = .ok (be16 0x6A80) := rfl
  have e6985 : (.ok (Util.toBE16 swConditionsNotSatisfied) : Res Bytes) = .ok (be16 0x6985) := rfl
  cases hb : E.decodeBox handle with
  | none =>
    simp only [openKeyHandle, hb, Go.lift_ok_bind]
    exact ⟨_, .here trivial, .error 0x6A80 (by decide)⟩
  | some box =>
    have n1 : ¬ (some box = none) := by simp
    simp only [openKeyHandle, hb, openBox, decrypt, hk, if_true]
    by_cases hiv : box.iv.length = 12
    · rw [if_pos hiv]
      cases hg : E.gcmOpen w.client.deviceKey box.iv box.data with
      | none =>
        refine ⟨_, .next n1 (.here ?_), .crash _⟩
        rintro ⟨box', plain, e1, e2, e3, -⟩
        rw [hb] at e1
        obtain rfl := Option.some.inj e1
        rw [hg] at e3
        cases e3
      | some plain =>
        have ho := opens_iff (w := w) hb hiv hg
        dsimp only
        rw [Res.bind_ok, Go.lift_ok_bind]
        have n2 : ¬ ¬ Opens E w handle (fun _ => True) := fun h => h ((ho _).2 trivial)
        have wrong : (¬ ∃ der, E.decodeKeyHandle plain =
            some { privateKey := some der, applicationID := application }) →
            Decides (authenticate E w control challenge application handle) (.sw 0x6A80) := by
          intro h
          exact .next (by rw [hb]; exact n1) (.next n2 (.here (by rw [ho]; exact h)))
        unfold authenticate at wrong
        rw [hb] at wrong
        cases hkh : E.decodeKeyHandle plain with
        | none => exact ⟨_, wrong (by rw [hkh]; simp), .error 0x6A80 (by decide)⟩
        | some k =>
          obtain ⟨pk, app⟩ := k
          cases pk with
          | none => exact ⟨_, wrong (by rw [hkh]; simp), .error 0x6A80 (by decide)⟩
          | some der =>
            dsimp only
            by_cases hap : app = application
            · subst hap
              rw [if_neg (by simp)]
              have n3 : ¬ ¬ Opens E w handle (fun plain => ∃ der, E.decodeKeyHandle plain =
                  some { privateKey := some der, applicationID := app }) :=
                fun h => h ((ho _).2 ⟨der, hkh⟩)
              cases hp : E.parseECDER der with
              | none =>
                refine ⟨_, .next n1 (.next n2 (.next n3 (.here ?_))), .crash _⟩
                rw [ho]
                rintro ⟨der', key, e, h⟩
                rw [hkh] at e
                simp only [Option.some.injEq, KeyHandle.mk.injEq, and_true] at e
                rw [← e, hp] at h
                cases h
              | some key =>
                have n4 : ¬ ¬ Opens E w handle (fun plain => ∃ der key, E.decodeKeyHandle plain =
                    some { privateKey := some der, applicationID := app } ∧
                    E.parseECDER der = some key) :=
                  fun h => h ((ho _).2 ⟨der, key, hkh, hp⟩)
                have fin : ∀ w' : World, w'.client = w.client → w'.rnd = w.rnd →
                    control ≠ 7 → ¬ (control ≠ 3 ∧ control ≠ 8) →
                    ¬ (control = 3 ∧ E.approve w.asks .u2fAuthenticate [] [] = false) →
                    ∃ o, Decides (authenticate E w control challenge app handle) o ∧
                      ShowsRes (finishAuthenticate E key app challenge w').1 o := by
                  intro w' hw1 hw2 h7 h38 h3
                  have hb' : ¬ (E.decodeBox handle = none) := by rw [hb]; simp
                  rcases finish_status (E := E) key app challenge w' with ⟨sig, hs, body, he⟩ | ⟨hs, c, he⟩
                  · rw [hw1, hw2] at hs
                    rw [he]
                    exact ⟨_, .next hb' (.next n2 (.next n3 (.next n4 (.next h7 (.next h38 (.next h3
                      (.next (fun h => h ((ho _).2 ⟨der, key, sig, hkh, hp, hs⟩))
                      (.here trivial)))))))), .success _⟩
                  · rw [hw1, hw2] at hs
                    rw [he]
                    refine ⟨_, .next hb' (.next n2 (.next n3 (.next n4 (.next h7 (.next h38 (.next h3
                      (.here ?_))))))), .crash _⟩
                    rw [ho]
                    rintro ⟨der', key', sig, e, h, h'⟩
                    rw [hkh] at e
                    simp only [Option.some.injEq, KeyHandle.mk.injEq, and_true] at e
                    rw [← e, hp] at h
                    obtain rfl := Option.some.inj h
                    rw [hs] at h'
                    cases h'
                unfold authenticate at fin
                rw [hb] at fin
                dsimp only
                by_cases h7 : control = 7
                · rw [if_pos h7]
                  exact ⟨_, .next n1 (.next n2 (.next n3 (.next n4 (.here h7)))),
                    .error 0x6985 (by decide)⟩
                rw [if_neg h7]
                by_cases h3 : control = 3
                · rw [if_pos h3]
                  have h38 : ¬ (control ≠ 3 ∧ control ≠ 8) := fun h => h.1 h3
                  cases ha : E.approve w.asks .u2fAuthenticate [] [] with
                  | false =>
                    have hr : approve E .u2fAuthenticate [] [] w = (.ok false,
                      { w with asks := w.asks ++ [⟨.u2fAuthenticate, [], [], false⟩] }) := by
                      unfold approve
                      simp only [Go.run_bind, Go.run_get, Go.modify, Go.run_pure, ha]
                    rw [Go.run_bind_ok hr, if_pos rfl]
                    exact ⟨_, .next n1 (.next n2 (.next n3 (.next n4 (.next h7 (.next h38
                      (.here ⟨h3, rfl⟩)))))), .error 0x6985 (by decide)⟩
                  | true =>
                    have hr : approve E .u2fAuthenticate [] [] w = (.ok true,
                      { w with asks := w.asks ++ [⟨.u2fAuthenticate, [], [], true⟩] }) := by
                      unfold approve
                      simp only [Go.run_bind, Go.run_get, Go.modify, Go.run_pure, ha]
                    rw [Go.run_bind_ok hr, if_neg (by simp)]
                    have := fin { w with asks := w.asks ++ [⟨.u2fAuthenticate, [], [], true⟩] } rfl rfl
                      h7 h38 (by rw [ha]; simp)
                    rw [ha] at this
                    exact this
                rw [if_neg h3]
                by_cases h8 : control = 8
                · rw [if_pos h8]
                  exact fin w rfl rfl h7 (fun h => h.2 h8) (fun h => h3 h.1)
                · rw [if_neg h8]
                  exact ⟨_, .next n1 (.next n2 (.next n3 (.next n4 (.next h7 (.here ⟨h3, h8⟩))))),
                    .error 0x6700 (by decide)⟩
            · rw [if_pos hap]
              refine ⟨_, wrong ?_, .error 0x6A80 (by decide)⟩
              rw [hkh]
              rintro ⟨der', e⟩
              simp only [Option.some.injEq, KeyHandle.mk.injEq] at e
              exact hap e.2
    · rw [if_neg hiv]
      refine ⟨_, .next n1 (.here ?_), .crash _⟩
      rintro ⟨box', plain, e1, e2, -⟩
      rw [hb] at e1
      obtain rfl := Option.some.inj e1
      exact hiv e2

theorem message_status {E : Env} (L : Laws E) {w : World}
    (hk : aesKeyOk w.client.deviceKey = true) (hh : Healthy E w.client)
    (hat : CanAttest E w.client) (m : Bytes) :
    ∃ o, Expected E w m o ∧ ShowsRes (handleMessage E m w).1 o := by
  unfold handleMessage
  rcases decodeMessage_frame m with ⟨header, data, n, hd, hf, -⟩ | ⟨c, hd, hf⟩
  · rw [hd, Go.lift_ok_bind]
    dsimp only
    by_cases h3 : header.command = 3
    · rw [if_pos h3]
      exact ⟨_, .version (h3 ▸ hf), .success (ascii "U2F_V2")⟩
    rw [if_neg h3]
    by_cases h1 : header.command = 1
    · rw [if_pos h1]
      obtain ⟨o, q1, q2⟩ := register_status (data := data) L hk hh hat
      exact ⟨o, .register (h1 ▸ hf) q1, q2⟩
    rw [if_neg h1]
    by_cases h2 : header.command = 2
    · rw [if_pos h2]
      rcases decodeAuthenticate_fields data with ⟨ch, a, h, he, hfi⟩ | ⟨q, he, hfi⟩
      · obtain ⟨o, q1, q2⟩ := authenticate_status (E := E) hk header.param1 he
        exact ⟨o, .authenticate (h2 ▸ hf) hfi q1, q2⟩
      · refine ⟨_, .authenticateShort (h2 ▸ hf) hfi, ?_⟩
        unfold handleAuthenticate
        rw [he]
        exact .crash _
    · rw [if_neg h2]
      exact ⟨_, .unknown hf h1 h2 h3, .crash _⟩
  · rw [hd]
    exact ⟨_, .unframed hf, .crash _⟩

theorem frame_unique {m data data' : Bytes} {ins p1 ins' p1' : UInt8} (h : Frame m ins p1 data)
    (h' : Frame m ins' p1' data') : ins = ins' ∧ p1 = p1' ∧ data = data' := by
  rcases decodeMessage_frame m with ⟨header, d, n, -, -, hu⟩ | ⟨c, -, hf⟩
  · obtain ⟨a1, a2, a3⟩ := hu _ _ _ h
    obtain ⟨b1, b2, b3⟩ := hu _ _ _ h'
    exact ⟨a1.trans b1.symm, a2.trans b2.symm, a3.trans b3.symm⟩
  · exact absurd ⟨_, _, _, h⟩ hf

theorem expected_unique {E : Env} {w : World} {m : Bytes} {o o' : Outcome}
    (h : Expected E w m o) (h' : Expected E w m o') : o = o' := by
  cases h with
  | unframed h =>
    cases h' with
    | unframed => rfl
    | version h' | register h' | authenticate h' | authenticateShort h' | unknown h' =>
      exact absurd ⟨_, _, _, h'⟩ h
  | version h =>
    cases h' with
    | unframed h' => exact absurd ⟨_, _, _, h⟩ h'
    | version h' => rfl
    | register h' | authenticate h' | authenticateShort h' =>
      exact absurd (frame_unique h h').1 (by decide)
    | unknown h' h1 h2 h3 => exact absurd (frame_unique h h').1.symm h3
  | register h ho =>
    cases h' with
    | unframed h' => exact absurd ⟨_, _, _, h⟩ h'
    | version h' | authenticate h' | authenticateShort h' =>
      exact absurd (frame_unique h h').1 (by decide)
    | register h' ho' =>
      obtain ⟨-, rfl, rfl⟩ := frame_unique h h'
      exact Device.decides_unique ho ho'
    | unknown h' h1 h2 h3 => exact absurd (frame_unique h h').1.symm h1
  | authenticate h hf ho =>
    cases h' with
    | unframed h' => exact absurd ⟨_, _, _, h⟩ h'
    | version h' | register h' => exact absurd (frame_unique h h').1 (by decide)
    | authenticate h' hf' ho' =>
      obtain ⟨-, rfl, rfl⟩ := frame_unique h h'
      obtain ⟨rfl, rfl, rfl⟩ := fields_unique hf hf'
      exact Device.decides_unique ho ho'
    | authenticateShort h' hf' =>
      obtain ⟨-, rfl, rfl⟩ := frame_unique h h'
      exact absurd ⟨_, _, _, hf⟩ hf'
    | unknown h' h1 h2 h3 => exact absurd (frame_unique h h').1.symm h2
  | authenticateShort h hf =>
    cases h' with
    | unframed h' => exact absurd ⟨_, _, _, h⟩ h'
    | version h' | register h' => exact absurd (frame_unique h h').1 (by decide)
    | authenticate h' hf' ho' =>
      obtain ⟨-, rfl, rfl⟩ := frame_unique h h'
      exact absurd ⟨_, _, _, hf'⟩ hf
    | authenticateShort h' hf' => rfl
    | unknown h' h1 h2 h3 => rfl
  | unknown h h1 h2 h3 =>
    cases h' with
    | unframed h' => rfl
    | version h' => exact absurd (frame_unique h h').1 h3
    | register h' => exact absurd (frame_unique h h').1 h1
    | authenticate h' => exact absurd (frame_unique h h').1 h2
    | authenticateShort h' => rfl
    | unknown h' => rfl

theorem be16_success {s : UInt16} {body : Bytes} (h : be16 s = body ++ [0x90, 0x00]) : s = 0x9000 := by
  have hl := congrArg List.length h
  simp only [be16, List.length_cons, List.length_nil, List.length_append] at hl
  have hb : body = [] := List.length_eq_zero_iff.1 (by omega)
  rw [hb] at h
  simp only [be16, List.nil_append, List.cons.injEq, and_true] at h
  have h1 := congrArg UInt8.toNat h.1
  have h2 := congrArg UInt8.toNat h.2
  rw [UInt8.toNat_ofNat'] at h1 h2
  have := s.toNat_lt
  apply UInt16.toNat_inj.1
  simp at h1 h2 ⊢
  omega

theorem shows_unique {r : Reply} {o o' : Outcome} (h : Shows r o) (h' : Shows r o') : o = o' := by
  cases r with
  | answer b =>
    have : ∀ {o}, Shows (.answer b) o → (∃ body, b = body ++ [0x90, 0x00] ∧ o = .sw 0x9000) ∨
        ∃ s, b = be16 s ∧ s ≠ 0x9000 ∧ o = .sw s := by
      intro o h
      cases h with
      | success body => exact .inl ⟨body, rfl, rfl⟩
      | error s hs => exact .inr ⟨s, rfl, hs, rfl⟩
    rcases this h with ⟨body, e, rfl⟩ | ⟨s, e, hs, rfl⟩ <;>
      rcases this h' with ⟨body', e', rfl⟩ | ⟨s', e', hs', rfl⟩
    · rfl
    · exact absurd (be16_success (e'.symm.trans e)) hs'
    · exact absurd (be16_success (e.symm.trans e')) hs
    · have := e.symm.trans e'
      simp only [be16, List.cons.injEq, and_true] at this
      have h1 := congrArg UInt8.toNat this.1
      have h2 := congrArg UInt8.toNat this.2
      rw [UInt8.toNat_ofNat', UInt8.toNat_ofNat'] at h1 h2
      have := s.toNat_lt
      have := s'.toNat_lt
      have : s = s' := UInt16.toNat_inj.1 (by omega)
      rw [this]
  | panicked =>
    cases h; cases h'; rfl
  | _ => cases h

end VF.Fido.U2f
