import Verif.Spec.Demo

/-!
# The demo's questions (C71, C79, C80)
-/

namespace VF.Props

open VF.Fido VF.Spec.Demo VF.Demo

/-! ## C71 -/

theorem dropWhile_all {p : Char → Bool} : ∀ {a : List Char}, (∀ c ∈ a, p c = true) → ∀ b,
    (a ++ b).dropWhile p = b.dropWhile p
  | [], _, _ => rfl
  | x :: a, h, b => by
    rw [List.cons_append, List.dropWhile_cons_of_pos (h x (by simp))]
    exact dropWhile_all (fun c hc => h c (by simp [hc])) b

theorem dropWhile_keep {p : Char → Bool} {a b : List Char} {x : Char} (h : p x = false) :
    (x :: a ++ b).dropWhile p = x :: a ++ b := by
  rw [List.cons_append, List.dropWhile_cons_of_neg (by simp [h])]

theorem dropWhile_split (p : Char → Bool) : ∀ l : List Char,
    ∃ a, l = a ++ l.dropWhile p ∧ ∀ c ∈ a, p c = true
  | [] => ⟨[], rfl, by simp⟩
  | x :: l => by
    cases h : p x with
    | false => exact ⟨[], by rw [List.dropWhile_cons_of_neg (by simp [h])]; rfl, by simp⟩
    | true =>
      obtain ⟨a, ha, hp⟩ := dropWhile_split p l
      refine ⟨x :: a, ?_, ?_⟩
      · rw [List.dropWhile_cons_of_pos h, List.cons_append, ← ha]
      · intro c hc
        rcases List.mem_cons.1 hc with rfl | hc
        · exact h
        · exact hp c hc

theorem trim_split (l : List Char) : ∃ a b, l = a ++ trim l ++ b ∧ (∀ c ∈ a, isSpace c = true) ∧
    ∀ c ∈ b, isSpace c = true := by
  obtain ⟨a, h1, h2⟩ := dropWhile_split isSpace l
  obtain ⟨b, h3, h4⟩ := dropWhile_split isSpace (l.dropWhile isSpace).reverse
  refine ⟨a, b.reverse, ?_, h2, fun c hc => h4 c (by simpa using hc)⟩
  have h5 : l.dropWhile isSpace = trim l ++ b.reverse := by
    unfold trim
    generalize (l.dropWhile isSpace).reverse.dropWhile isSpace = m at *
    rw [← List.reverse_reverse (l.dropWhile isSpace), h3, List.reverse_append]
  rw [List.append_assoc, ← h5]
  exact h1

theorem trim_word {a w b : List Char} (ha : ∀ c ∈ a, isSpace c = true)
    (hb : ∀ c ∈ b, isSpace c = true) (hw : w ≠ []) (hn : ∀ c ∈ w, isSpace c = false) :
    trim (a ++ w ++ b) = w := by
  unfold trim
  cases w with
  | nil => exact absurd rfl hw
  | cons x w =>
    rw [List.append_assoc, dropWhile_all ha, dropWhile_keep (hn x (by simp)), List.reverse_append,
      dropWhile_all (fun c hc => hb c (by simpa using hc))]
    have hne : (x :: w).reverse ≠ [] := by simp
    obtain ⟨y, ys, hy⟩ : ∃ y ys, (x :: w).reverse = y :: ys := by
      cases h : (x :: w).reverse with
      | nil => exact absurd h hne
      | cons y ys => exact ⟨y, ys, rfl⟩
    have hyn : isSpace y = false := hn y (by
      have : y ∈ (x :: w).reverse := by rw [hy]; simp
      exact List.mem_reverse.1 this)
    rw [hy, List.dropWhile_cons_of_neg (by simp [hyn]), ← hy, List.reverse_reverse]

theorem mapsTo_yes {lower : Char → Char} (hl : LowerOk lower) (w : List Char) :
    (w.map lower = ['y'] ∨ w.map lower = ['y', 'e', 's']) ↔ w ∈ yesWords := by
  obtain ⟨hy, he, hs⟩ := hl
  match w with
  | [] => simp [yesWords]
  | [a] => simp [yesWords, hy]
  | [a, b] => simp [yesWords]
  | [a, b, c] =>
    simp only [yesWords, List.map_cons, List.map_nil, List.cons.injEq, and_true, hy, he, hs,
      List.mem_cons, List.not_mem_nil, or_false, reduceCtorEq, and_false, false_or]
    constructor
    · rintro ⟨rfl | rfl, rfl | rfl, rfl | rfl⟩ <;> simp
    · rintro (⟨rfl, rfl, rfl⟩ | ⟨rfl, rfl, rfl⟩ | ⟨rfl, rfl, rfl⟩ | ⟨rfl, rfl, rfl⟩ |
        ⟨rfl, rfl, rfl⟩ | ⟨rfl, rfl, rfl⟩ | ⟨rfl, rfl, rfl⟩ | ⟨rfl, rfl, rfl⟩) <;> simp
  | a :: b :: c :: d :: l => simp [yesWords]

theorem yesWords_ok : ∀ w ∈ yesWords, w ≠ [] ∧ ∀ c ∈ w, isSpace c = false := by decide

/-- A line counts as a yes exactly if it is "y" or "yes", in any case, with white space around. -/
theorem C71_yes_iff {lower : Char → Char} (hl : LowerOk lower) (line : List Char) :
    isYes lower line = true ↔ Yes line := by
  simp only [isYes, Bool.or_eq_true, beq_iff_eq]
  rw [mapsTo_yes hl]
  constructor
  · intro h
    obtain ⟨a, b, h1, h2, h3⟩ := trim_split line
    exact ⟨a, trim line, b, h1, h, h2, h3⟩
  · rintro ⟨a, w, b, rfl, hw, ha, hb⟩
    obtain ⟨h1, h2⟩ := yesWords_ok w hw
    rw [trim_word ha hb h1 h2]
    exact hw

theorem toLower_iff (c d e : Char) (hd : 97 ≤ d.val.toNat ∧ d.val.toNat ≤ 122)
    (he : e.val.toNat + 32 = d.val.toNat) : c.toLower = d ↔ c = d ∨ c = e := by
  have ext : ∀ a b : Char, a = b ↔ a.val.toNat = b.val.toNat := fun a b =>
    ⟨fun h => by rw [h], fun h => Char.ext (UInt32.toNat_inj.1 h)⟩
  unfold Char.toLower
  have hA : 'A'.val.toNat = 65 := rfl
  have hZ : 'Z'.val.toNat = 90 := rfl
  have h32 : ('a'.val - 'A'.val).toNat = 32 := rfl
  split
  · rename_i h
    rw [ext, ext c, ext c]
    simp only [ge_iff_le, UInt32.le_iff_toNat_le, hA, hZ] at h
    simp only [UInt32.toNat_add, h32]
    omega
  · rename_i h
    rw [ext, ext c]
    simp only [ge_iff_le, UInt32.le_iff_toNat_le, hA, hZ] at h
    omega

/-- ASCII lower case meets the assumption. -/
theorem lowerOk_ascii : LowerOk Char.toLower :=
  ⟨fun c => toLower_iff c 'y' 'Y' (by decide) (by decide),
    fun c => toLower_iff c 'e' 'E' (by decide) (by decide),
    fun c => toLower_iff c 's' 'S' (by decide) (by decide)⟩

/-- What the reader returns is the first line of what the reads return, put together. -/
theorem splitLine_spec : ∀ {s a b : List Char}, splitLine s = some (a, b) →
    ∃ l, a = l ++ ['\n'] ∧ '\n' ∉ l ∧ s = a ++ b
  | [], _, _, h => by simp [splitLine] at h
  | c :: cs, a, b, h => by
    unfold splitLine at h
    split at h
    · rename_i hc
      obtain ⟨rfl, rfl⟩ := Prod.mk.inj (Option.some.inj h)
      exact ⟨[], by simp [hc], by simp, rfl⟩
    · rename_i hc
      split at h
      · rename_i x y hx
        obtain ⟨l, h1, h2, h3⟩ := splitLine_spec hx
        obtain ⟨rfl, rfl⟩ := Prod.mk.inj (Option.some.inj h)
        exact ⟨c :: l, by simp [h1], by simp [h2, Ne.symm hc], by simp [h3]⟩
      · cases h

theorem splitLine_line : ∀ {l : List Char} (b : List Char), '\n' ∉ l →
    splitLine (l ++ '\n' :: b) = some (l ++ ['\n'], b)
  | [], b, _ => by simp [splitLine]
  | c :: l, b, h => by
    have hc : c ≠ '\n' := fun e => h (by simp [e])
    have := splitLine_line b (l := l) (fun hm => h (by simp [hm]))
    simp [splitLine, hc, this]

theorem splitLine_none : ∀ {s : List Char}, splitLine s = none → '\n' ∉ s
  | [], _ => by simp
  | c :: cs, h => by
    unfold splitLine at h
    split at h
    · cases h
    · rename_i hc
      split at h
      · cases h
      · rename_i hx
        have := splitLine_none hx
        simp [this, Ne.symm hc]

theorem readLine_spec : ∀ (stdin : List (List Char)) {have_ line : List Char} {rest : List (List Char)},
    readLine have_ stdin = some (line, rest) →
    ∃ l b, line = l ++ ['\n'] ∧ '\n' ∉ l ∧ have_ ++ stdin.flatten = line ++ b ++ rest.flatten
  | [], _, _, _, h => by simp [readLine] at h
  | chunk :: more, have_, line, rest, h => by
    unfold readLine at h
    split at h
    · rename_i x y hx
      obtain ⟨l, h1, h2, h3⟩ := splitLine_spec hx
      obtain ⟨rfl, rfl⟩ := Prod.mk.inj (Option.some.inj h)
      exact ⟨l, y, h1, h2, by rw [List.flatten_cons, ← List.append_assoc, h3]⟩
    · obtain ⟨l, b, h1, h2, h3⟩ := readLine_spec more h
      exact ⟨l, b, h1, h2, by rw [← h3, List.flatten_cons, List.append_assoc]⟩

theorem yes_newline (l : List Char) : Yes (l ++ ['\n']) ↔ Yes l := by
  constructor
  · rintro ⟨a, w, b, h, hw, ha, hb⟩
    rcases List.eq_nil_or_concat b with rfl | ⟨b', x, rfl⟩
    · exfalso
      obtain ⟨h1, h2⟩ := yesWords_ok w hw
      rcases List.eq_nil_or_concat w with rfl | ⟨w', y, rfl⟩
      · exact h1 rfl
      · have : l ++ ['\n'] = (a ++ w') ++ [y] := by simpa using h
        have hy : '\n' = y := by simpa using (List.append_inj' this rfl).2
        have := h2 y (by simp)
        rw [← hy] at this
        exact absurd this (by decide)
    · have : l ++ ['\n'] = (a ++ w ++ b') ++ [x] := by simpa using h
      exact ⟨a, w, b', (List.append_inj' this rfl).1, hw, ha, fun c hc => hb c (by simp [hc])⟩
  · rintro ⟨a, w, b, rfl, hw, ha, hb⟩
    refine ⟨a, w, b ++ ['\n'], by simp, hw, ha, ?_⟩
    intro c hc
    rcases List.mem_append.1 hc with hc | hc
    · exact hb c hc
    · obtain rfl : c = '\n' := by simpa using hc
      decide

theorem mentions (a text b : Bytes) : Mentions (a ++ text ++ b) text := ⟨a, b, rfl⟩

/-- The questions for FIDO2 actions name the action, the relying party and (for a login) the user. -/
theorem C71_question_names {action : Action} (rp user : Bytes)
    (h : action = .getAssertion ∨ action = .makeCredential) :
    Names action rp user (question action rp user) := by
  have e1 : ascii "Approve login for \"" = ascii "Approve " ++ ascii "login" ++ ascii " for \"" := by
    decide +kernel
  have e2 : ascii "Approve account creation for \"" =
      ascii "Approve " ++ ascii "account creation" ++ ascii " for \"" := by decide +kernel
  rcases h with rfl | rfl
  · refine ⟨?_, ?_, ?_⟩
    · refine ⟨ascii "Approve ", ascii " for \"" ++ rp ++ ascii "\" with identity \"" ++ user ++
        ascii "\" (Y/n)?", ?_⟩
      simp only [question, e1, List.append_assoc]
    · refine ⟨ascii "Approve login for \"", ascii "\" with identity \"" ++ user ++
        ascii "\" (Y/n)?", ?_⟩
      simp only [question, List.append_assoc]
    · exact ⟨_, _, rfl⟩
  · refine ⟨?_, _, _, rfl⟩
    refine ⟨ascii "Approve ", ascii " for \"" ++ rp ++ ascii "\" (Y/n)?", ?_⟩
    simp only [question, e2, List.append_assoc]

/-- An action is approved only if the next line of input is a yes, and the question shown is the one
for the action. -/
theorem C71_approved_only_on_yes {lower : Char → Char} (hl : LowerOk lower) {action : Action}
    {rp user shown : Bytes} {stdin rest : List (List Char)} {answer : Bool}
    (h : approve lower action rp user stdin = .ok (shown, answer, rest)) :
    shown = question action rp user ∧
    ∃ line after, stdin.flatten = line ++ '\n' :: after ∧ '\n' ∉ line ∧
      (answer = true ↔ Yes line) := by
  unfold approve prompt at h
  cases hr : readLine [] stdin with
  | none => rw [hr] at h; cases h
  | some p =>
    obtain ⟨line, rest'⟩ := p
    rw [hr] at h
    obtain ⟨l, b, h1, h2, h3⟩ := readLine_spec stdin hr
    have h : (Res.ok (question action rp user, isYes lower line, rest') : Res _) =
      .ok (shown, answer, rest) := h
    simp only [Res.ok.injEq, Prod.mk.injEq] at h
    obtain ⟨h4, rfl, -⟩ := h
    refine ⟨h4.symm, l, b ++ rest'.flatten, ?_, h2, ?_⟩
    · rw [List.nil_append] at h3; rw [h3, h1]; simp
    · rw [C71_yes_iff hl, h1, yes_newline]

/-- A login approved by " Yes". -/
example : approve Char.toLower .getAssertion (ascii "example.org") (ascii "alice")
    [[' ', 'Y', 'e'], ['s', '\n']] =
    .ok (question .getAssertion (ascii "example.org") (ascii "alice"), true, []) := by rfl

/-- The questions for U2F actions name the other action. -/
theorem C71_u2f_questions_refuted (rp user : Bytes) :
    question .u2fRegister rp user = ascii "Approve use of U2F device (Y/n)?" ∧
      question .u2fAuthenticate rp user = ascii "Approve registration of U2F device (Y/n)?" ∧
      ¬ Names .u2fRegister rp user (question .u2fRegister rp user) ∧
      ¬ Names .u2fAuthenticate rp user (question .u2fAuthenticate rp user) := by
  have key : ∀ q t : Bytes, (¬ ∃ n : Fin (q.length + 1), (q.drop n).take t.length = t) →
      ¬ Mentions q t := by
    intro q t h hm
    obtain ⟨a, b, e⟩ := hm
    refine h ⟨⟨a.length, by rw [e]; simp; omega⟩, ?_⟩
    dsimp only
    rw [e]
    simp
  refine ⟨rfl, rfl, ?_, ?_⟩
  · exact key _ _ (by dsimp only [question]; decide +kernel)
  · exact key _ _ (by dsimp only [question]; decide +kernel)

/-! ## C79 -/

/-- If names of relying parties have no quotes, the login question tells which relying party and which
user it is about. -/
theorem C79_question_determines {rp user rp' user' : Bytes} (h1 : 0x22 ∉ rp) (h2 : 0x22 ∉ rp')
    (h : question .getAssertion rp user = question .getAssertion rp' user') :
    rp = rp' ∧ user = user' := by
  have e : ascii "\" with identity \"" = 0x22 :: ascii " with identity \"" := by decide +kernel
  simp only [question, List.append_assoc, List.append_cancel_left_eq, e, List.cons_append] at h
  have key : ∀ {a b x y : Bytes}, (0x22 : UInt8) ∉ a → (0x22 : UInt8) ∉ b →
      a ++ 0x22 :: x = b ++ 0x22 :: y → a = b ∧ x = y := by
    intro a
    induction a with
    | nil =>
      intro b x y _ hb he
      cases b with
      | nil => exact ⟨rfl, by simpa using he⟩
      | cons c b =>
        simp only [List.nil_append, List.cons_append, List.cons.injEq] at he
        exact absurd (by rw [he.1]; simp) hb
    | cons c a ih =>
      intro b x y ha hb he
      cases b with
      | nil =>
        simp only [List.nil_append, List.cons_append, List.cons.injEq] at he
        exact absurd (by rw [he.1]; simp) ha
      | cons d b =>
        simp only [List.cons_append, List.cons.injEq] at he
        obtain ⟨h5, h6⟩ := ih (fun hm => ha (by simp [hm])) (fun hm => hb (by simp [hm])) he.2
        exact ⟨by rw [he.1, h5], h6⟩
  obtain ⟨h3, h4⟩ := key h1 h2 h
  rw [List.append_cancel_left_eq] at h4
  exact ⟨h3, List.append_cancel_right h4⟩

/-- The same for the question about the creation of an account, without any condition. -/
theorem C79_creation_question_determines {rp user rp' user' : Bytes}
    (h : question .makeCredential rp user = question .makeCredential rp' user') : rp = rp' := by
  simp only [question, List.append_assoc, List.append_cancel_left_eq] at h
  exact List.append_cancel_right h

/-- In general it does not: a relying party with a quote in its name gets the question of another. -/
theorem C79_quotes_refuted :
    question .getAssertion (ascii "bank\" with identity \"alice") (ascii "bob") =
      question .getAssertion (ascii "bank") (ascii "alice\" with identity \"bob") := by
  decide +kernel

/-! ## C80 -/

theorem prompt_line {lower : Char → Char} {l : List Char} (h : '\n' ∉ l)
    (rest : List (List Char)) :
    prompt lower ((l ++ ['\n']) :: rest) = .ok (isYes lower (l ++ ['\n']), rest) := by
  simp only [prompt, readLine, List.nil_append, splitLine_line [] h]

/-- If every read from the terminal returns one line, the n-th question is answered by the n-th
line. -/
theorem C80_one_line_per_read {lower : Char → Char} (hl : LowerOk lower) :
    ∀ (ls : List (List Char)), (∀ l ∈ ls, '\n' ∉ l) →
    ∃ bs, answers lower ls.length (ls.map (· ++ ['\n'])) = .ok bs ∧ bs.length = ls.length ∧
      ∀ (i : Nat) l b, ls[i]? = some l → bs[i]? = some b → (b = true ↔ Yes l)
  | [], _ => ⟨[], rfl, rfl, by simp⟩
  | l :: ls, h => by
    obtain ⟨bs, h1, h2, h3⟩ := C80_one_line_per_read hl ls (fun x hx => h x (by simp [hx]))
    refine ⟨isYes lower (l ++ ['\n']) :: bs, ?_, by simp [h2], ?_⟩
    · simp only [List.length_cons, List.map_cons, answers, prompt_line (h l (by simp)), h1]
    · intro i x b hx hb
      cases i with
      | zero =>
        obtain rfl : l = x := by simpa using hx
        obtain rfl : isYes lower (l ++ ['\n']) = b := by simpa using hb
        rw [C71_yes_iff hl, yes_newline]
      | succ i => exact h3 i x b (by simpa using hx) (by simpa using hb)

/-- Those are then the lines of the input. -/
theorem lines_of_reads : ∀ (ls : List (List Char)), (∀ l ∈ ls, '\n' ∉ l) →
    lines (ls.map (· ++ ['\n'])).flatten = ls
  | [], _ => rfl
  | l :: ls, h => by
    have key : ∀ (l cur rest : List Char), '\n' ∉ l →
        linesFrom cur (l ++ '\n' :: rest) = (cur ++ l) :: linesFrom [] rest := by
      intro l
      induction l with
      | nil => intro cur rest _; simp [linesFrom]
      | cons c l ih =>
        intro cur rest hn
        have hc : c ≠ '\n' := fun e => hn (by simp [e])
        simp only [List.cons_append, linesFrom, if_neg hc]
        rw [ih _ _ (fun hm => hn (by simp [hm]))]
        simp
    have := lines_of_reads ls (fun x hx => h x (by simp [hx]))
    unfold lines at *
    rw [List.map_cons, List.flatten_cons, List.append_assoc, List.singleton_append,
      key l [] _ (h l (by simp)), this]
    rfl

/-- In general a line may be lost: "y", "n" and "y" are entered, two questions are asked, and both are
answered with yes. -/
theorem C80_lost_line_refuted : ∃ stdin : List (List Char),
    lines stdin.flatten = [['y'], ['n'], ['y']] ∧ ¬ Yes ['n'] ∧
    answers Char.toLower 2 stdin = .ok [true, true] := by
  refine ⟨[['y', '\n', 'n', '\n'], ['y', '\n']], rfl, ?_, rfl⟩
  rw [← C71_yes_iff lowerOk_ascii]
  decide

end VF.Props
