import Verif.Spec.ErrorReport
import Verif.Proof.Files.NIST
/-!
# C86: error reports
-/
namespace AF.ErrorReport
open AF
open AF.Files (tag printInt)
variable {H : Type}

theorem inForce_set (pre : List (Event H)) (h : Option (Handler H)) : inForce (pre ++ [.set h]) = h := by
  simp [inForce]

theorem inForce_error (pre : List (Event H)) (c : Int) (f : List Byte) (a : List Arg) (st : List Byte) :
    inForce (pre ++ [.error c f a st]) = inForce pre := by
  simp [inForce]

/-- What is seen of an event is decided by the handler in force before it. -/
theorem run_at (post : List (Event H)) (e : Event H) (pre : List (Event H)) :
    (run init (pre ++ e :: post))[pre.length]? = some (step (inForce pre) e).2 := by
  have key : ∀ (es done : List (Event H)), (run (inForce done) (es ++ e :: post))[es.length]? = some (step (inForce (done ++ es)) e).2 := by
    intro es
    induction es with
    | nil => intro done; simp [run]
    | cons x es ih =>
      intro done
      have hx : (step (inForce done) x).1 = inForce (done ++ [x]) := by
        cases x with
        | set h => simp [step, inForce_set]
        | error => simp [step, inForce_error]
      have := ih (done ++ [x])
      simp only [List.append_assoc, List.singleton_append] at this
      simp only [List.cons_append, run, List.length_cons, List.getElem?_cons_succ, hx]
      exact this
  have := key pre []
  simpa [inForce, init] using this

/-- C86: whatever happened before and whoever called, a handler's own code included, `afSetErrorHandler` returns the
handler that was in force: so that putting it back restores what was there. -/
theorem C86_set (pre post : List (Event H)) (h : Option (Handler H)) :
    (run init (pre ++ .set h :: post))[pre.length]? = some (.returned (inForce pre)) := by
  rw [run_at]; rfl

theorem cstr_ok : ∀ {s : List Byte} (rest : List Byte), 0 ∉ s → cstr (s ++ 0 :: rest) = some s
  | [], _, _ => by simp [cstr]
  | b :: s, rest, h => by
    simp only [List.mem_cons, not_or] at h
    have hb : b ≠ 0 := fun e => h.1 e.symm
    rw [List.cons_append, cstr, if_neg hb, cstr_ok rest h.2]; rfl

theorem cstr_nonzero : ∀ {l s : List Byte}, cstr l = some s → 0 ∉ s
  | [], s, h => by simp [cstr] at h
  | b :: l, s, h => by
    unfold cstr at h
    split at h
    · cases h; simp
    · rename_i hb
      cases hc : cstr l with
      | none => rw [hc] at h; simp at h
      | some t =>
        rw [hc] at h
        simp only [Option.map_some, Option.some.injEq] at h
        subst h
        have := cstr_nonzero hc
        simp only [List.mem_cons, not_or]
        exact ⟨fun e => hb e.symm, this⟩

theorem cstr_none : ∀ {l : List Byte}, 0 ∉ l → cstr l = none
  | [], _ => rfl
  | b :: l, h => by
    simp only [List.mem_cons, not_or] at h
    have hb : b ≠ 0 := fun e => h.1 e.symm
    rw [cstr, if_neg hb, cstr_none h.2]; rfl

theorem printInt_nonzero (n : Int) : (0 : Byte) ∉ printInt n := by
  intro h
  have := Files.printInt_plain n 0 h
  simp [Files.plain] at this

theorem map_some {o : Option (List Byte)} {g : List Byte → List Byte} {r : List Byte} (h : o.map g = some r) :
    ∃ x, o = some x ∧ g x = r := by
  cases o with
  | none => simp at h
  | some x => exact ⟨x, rfl, by simpa using h⟩

theorem expand_nonzero : ∀ (n : Nat) (f : List Byte) (as : List Arg) {out : List Byte}, f.length ≤ n → 0 ∉ f →
    expand f as = some out → 0 ∉ out
  | _, [], as, out, _, _, h => by simp [expand] at h; simp [h]
  | 0, b :: f, as, out, hl, _, _ => by simp at hl
  | n + 1, b :: f, as, out, hl, h0, h => by
    simp only [List.mem_cons, not_or] at h0
    simp only [List.length_cons] at hl
    unfold expand at h
    split at h
    · obtain ⟨x, hx, rfl⟩ := map_some h
      have := expand_nonzero n f as (by omega) h0.2 hx
      simp only [List.mem_cons, not_or]
      exact ⟨h0.1, this⟩
    · cases f with
      | nil => simp at h
      | cons c f =>
        simp only [List.mem_cons, not_or] at h0
        simp only [List.length_cons] at hl
        dsimp only at h
        split at h
        · split at h
          · split at h
            · rename_i s hs
              obtain ⟨x, hx, rfl⟩ := map_some h
              have := expand_nonzero n f _ (by omega) h0.2.2 hx
              simp only [List.mem_append, not_or]
              exact ⟨cstr_nonzero hs, this⟩
            · cases h
          · cases h
        · split at h
          · split at h
            · obtain ⟨x, hx, rfl⟩ := map_some h
              have := expand_nonzero n f _ (by omega) h0.2.2 hx
              simp only [List.mem_append, not_or]
              exact ⟨printInt_nonzero _, this⟩
            · cases h
          · cases f with
            | nil => simp at h
            | cons d f =>
              simp only [List.mem_cons, not_or] at h0
              simp only [List.length_cons] at hl
              dsimp only at h
              split at h
              · split at h
                · obtain ⟨x, hx, rfl⟩ := map_some h
                  have := expand_nonzero n f _ (by omega) h0.2.2.2 hx
                  simp only [List.mem_append, not_or]
                  exact ⟨printInt_nonzero _, this⟩
                · cases h
              · cases h

theorem vsnprintf_says {stack out : List Byte} (hs : stack.length = 1024) (h0 : 0 ∉ out) :
    Says (vsnprintf stack out) (out.take 1023) := by
  refine ⟨?_, fun h => h0 (List.mem_of_mem_take h), _, rfl⟩
  unfold vsnprintf
  simp only [List.length_append, List.length_cons, List.length_drop, List.length_take, hs]
  omega

theorem afError_reports {f : List Byte} {as : List Arg} {stack msg : List Byte} (h : Option (Handler H)) (code : Int)
    (he : expand f as = some msg) (hf : 0 ∉ f) (hs : stack.length = 1024) : Reports h code msg (afError h code f as stack) := by
  have hm := expand_nonzero f.length f as (Nat.le_refl _) hf he
  have hv := vsnprintf_says hs hm
  unfold afError Reports
  rw [he]
  cases h with
  | none => rfl
  | some h =>
    cases h with
    | client c => exact ⟨_, rfl, hv⟩
    | default =>
      obtain ⟨-, h0, rest, hr⟩ := hv
      dsimp only
      unfold defaultErrorFunction
      rw [hr, cstr_ok rest h0]

/-- C86: whatever happened before, an error goes to the handler in force, once, with its code and its message, cut off
after 1023 bytes and terminated; no byte of the stack gets into it. -/
theorem C86_error (pre post : List (Event H)) (code : Int) {f : List Byte} {as : List Arg} {stack msg : List Byte}
    (he : expand f as = some msg) (hf : 0 ∉ f) (hs : stack.length = 1024) :
    ∃ o, (run init (pre ++ .error code f as stack :: post))[pre.length]? = some o ∧ Reports (inForce pre) code msg o := by
  rw [run_at]
  exact ⟨_, rfl, afError_reports _ _ he hf hs⟩

theorem expand_text : ∀ (t f : List Byte) (as : List Arg), 0x25 ∉ t → expand (t ++ f) as = (expand f as).map (t ++ ·)
  | [], f, as, _ => by cases h : expand f as <;> simp [h]
  | b :: t, f, as, h => by
    simp only [List.mem_cons, not_or] at h
    have hb : b ≠ 0x25 := fun e => h.1 e.symm
    rw [List.cons_append, expand.eq_def]
    dsimp only
    rw [if_pos hb, expand_text t f as h.2]
    cases expand f as <;> simp

theorem expand_str (t u : List Byte) (buf s : List Byte) (ht : 0x25 ∉ t) (hu : 0x25 ∉ u) (hc : cstr buf = some s) :
    expand (t ++ 0x25 :: 0x73 :: u) [.str buf] = some (t ++ s ++ u) := by
  have h1 : expand u [] = some u := by
    have := expand_text u [] [] hu
    simpa [expand] using this
  rw [expand_text _ _ _ ht]
  have : expand (0x25 :: 0x73 :: u) [.str buf] = some (s ++ u) := by
    rw [expand.eq_def]
    simp [hc, h1]
  rw [this]; simp

theorem expand_str_none (t u : List Byte) (buf : List Byte) (ht : 0x25 ∉ t) (hc : cstr buf = none) :
    expand (t ++ 0x25 :: 0x73 :: u) [.str buf] = none := by
  rw [expand_text _ _ _ ht]
  have : expand (0x25 :: 0x73 :: u) [.str buf] = none := by
    rw [expand.eq_def]
    simp [hc]
  rw [this]; rfl

/-- C86: the name of a file that cannot be opened is reported as it is, per cent signs included, whatever the name. -/
theorem C86_open (pre post : List (Event H)) {s : List Byte} (rest : List Byte) {stack : List Byte} (h0 : 0 ∉ s)
    (hs : stack.length = 1024) :
    ∃ o, (run init (pre ++ openEvent (s ++ 0 :: rest) stack :: post))[pre.length]? = some o ∧
      Reports (inForce pre) 3 (tag "could not open file '" ++ s ++ tag "'") o := by
  refine C86_error pre post 3 ?_ ?_ hs
  · exact expand_str (tag "could not open file '") (tag "'") _ s (by decide) (by decide) (cstr_ok rest h0)
  · decide

theorem readPString_whole {n : Byte} {name rest buf : List Byte} (hn : name.length = n.toNat) :
    readPString (n :: (name ++ rest)) buf = name ++ 0 :: buf.drop (n.toNat + 1) := by
  unfold readPString
  simp [← hn]

theorem readPString_short {n : Byte} {rest buf : List Byte} (hn : rest.length < n.toNat) :
    readPString (n :: rest) buf = rest ++ buf.drop rest.length := by
  unfold readPString
  have : rest.take n.toNat = rest := List.take_of_length_le (by omega)
  simp only [this]
  rw [if_neg (by omega)]

theorem cstr_takeWhile : ∀ (s rest : List Byte), cstr (s ++ 0 :: rest) = some (s.takeWhile (· ≠ 0))
  | [], rest => by simp [cstr]
  | b :: s, rest => by
    by_cases hb : b = 0
    · simp [cstr, hb]
    · rw [List.cons_append, cstr, if_neg hb, cstr_takeWhile s rest, List.takeWhile_cons_of_pos (by simpa using hb)]; rfl

/-- C86: an AIFF-C file in one of Apple's compressions is refused with the name that the file gives to it, up to a zero if the name
has one, whatever was on the stack — if the name is there. -/
theorem C86_apple (pre post : List (Event H)) {n : Byte} {name rest buf stack : List Byte} (hn : name.length = n.toNat)
    (hs : stack.length = 1024) :
    ∃ o, (run init (pre ++ appleEvent (n :: (name ++ rest)) buf stack :: post))[pre.length]? = some o ∧
      Reports (inForce pre) 0 (tag "AIFF-C format does not support Apple's proprietary " ++ name.takeWhile (· ≠ 0) ++
        tag " compression format") o := by
  refine C86_error pre post 0 ?_ ?_ hs
  · rw [readPString_whole hn]
    exact expand_str (tag "AIFF-C format does not support Apple's proprietary ") (tag " compression format") _ _ (by decide) (by decide)
      (cstr_takeWhile _ _)
  · decide

theorem apple_fmt : appleFmt = tag "AIFF-C format does not support Apple's proprietary " ++ 0x25 :: 0x73 :: tag " compression format" := by
  decide

/-- C86 fails for a file that ends within the name: the message says what happened to be on the stack (two contents of the 256
bytes of the buffer, two messages), and if there is no zero there, the library reads on behind the buffer. -/
theorem C86_apple_refuted (pre post : List (Event H)) {c : H} (hc : inForce pre = some (.client c)) {n : Byte} {rest stack : List Byte}
    (hn : rest.length < n.toNat) (h0 : 0 ∉ rest) (hs : stack.length = 1024) :
    (∃ b1 b2 : List Byte, b1.length = 256 ∧ b2.length = 256 ∧ ∃ m1 m2 s1 s2,
      (run init (pre ++ appleEvent (n :: rest) b1 stack :: post))[pre.length]? = some (.called c 0 m1) ∧ Says m1 s1 ∧
      (run init (pre ++ appleEvent (n :: rest) b2 stack :: post))[pre.length]? = some (.called c 0 m2) ∧ Says m2 s2 ∧ s1 ≠ s2) ∧
    (∃ b : List Byte, b.length = 256 ∧ (run init (pre ++ appleEvent (n :: rest) b stack :: post))[pre.length]? = some .overrun) := by
  have hlt := n.isLt
  have hk : rest.length ≤ 254 := by omega
  have msg : ∀ (b s : List Byte), cstr (readPString (n :: rest) b) = some s → s.length ≤ 255 →
      ∃ m, (run init (pre ++ appleEvent (n :: rest) b stack :: post))[pre.length]? = some (.called c 0 m) ∧
        Says m (tag "AIFF-C format does not support Apple's proprietary " ++ s ++ tag " compression format") := by
    intro b s hb hl
    have he := expand_str (tag "AIFF-C format does not support Apple's proprietary ") (tag " compression format") _ s
      (by decide) (by decide) hb
    rw [← apple_fmt] at he
    obtain ⟨o, ho, hr⟩ := C86_error pre post 0 he (by decide) hs
    rw [hc] at hr
    obtain ⟨buf, rfl, hsay⟩ := hr
    have hlen : (tag "AIFF-C format does not support Apple's proprietary " ++ s ++ tag " compression format").length ≤ 1023 := by
      have h1 : (tag "AIFF-C format does not support Apple's proprietary ").length = 51 := by decide
      have h2 : (tag " compression format").length = 19 := by decide
      simp only [List.length_append, h1, h2]; omega
    rw [List.take_of_length_le hlen] at hsay
    exact ⟨buf, ho, hsay⟩
  refine ⟨⟨List.replicate 256 0, List.replicate rest.length 0 ++ 65 :: List.replicate (255 - rest.length) 0, List.length_replicate,
    by simp only [List.length_append, List.length_cons, List.length_replicate]; omega, ?_⟩, ?_⟩
  · obtain ⟨m1, h1, s1⟩ := msg (List.replicate 256 0) rest (by
      rw [readPString_short hn]
      rw [List.drop_replicate]
      obtain ⟨k, hk'⟩ : ∃ k, 256 - rest.length = k + 1 := ⟨255 - rest.length, by omega⟩
      rw [hk', List.replicate_succ]
      exact cstr_ok _ h0) (by omega)
    obtain ⟨m2, h2, s2⟩ := msg (List.replicate rest.length 0 ++ 65 :: List.replicate (255 - rest.length) 0) (rest ++ [65]) (by
      rw [readPString_short hn, List.drop_left' (by simp)]
      obtain ⟨k, hk'⟩ : ∃ k, 255 - rest.length = k + 1 := ⟨254 - rest.length, by omega⟩
      rw [hk', List.replicate_succ]
      have h1 : (0 : Byte) ∉ rest ++ [65] := by
        intro h
        rcases List.mem_append.1 h with h | h
        · exact h0 h
        · rw [List.mem_singleton] at h; revert h; decide
      have := cstr_ok (s := rest ++ [65]) (List.replicate k 0) h1
      rw [List.append_assoc, List.singleton_append] at this
      exact this) (by simp; omega)
    exact ⟨m1, m2, _, _, h1, s1, h2, s2, by simp⟩
  · refine ⟨List.replicate 256 1, List.length_replicate, ?_⟩
    rw [run_at]
    have : cstr (readPString (n :: rest) (List.replicate 256 1)) = none := by
      rw [readPString_short hn]
      apply cstr_none
      intro h
      rcases List.mem_append.1 h with h | h
      · exact h0 h
      · have := List.eq_of_mem_replicate (List.mem_of_mem_drop h)
        revert this; decide
    have he := expand_str_none (tag "AIFF-C format does not support Apple's proprietary ") (tag " compression format") _ (by decide) this
    rw [← apple_fmt] at he
    simp only [step, appleEvent, afError, he]

/-! ## Cases -/

/-- A handler that is replaced, an error while there is none, and the first one put back (30 bytes of stack do here). -/
example : run init [.set (some (.client 1)), openEvent (tag "a%n" ++ [0]) (List.replicate 30 7), .set none,
      openEvent (tag "b" ++ [0]) (List.replicate 30 7), .set (some (.client 1))] =
    [.returned (some .default), .called 1 3 (tag "could not open file 'a%n'" ++ 0 :: List.replicate 4 7), .returned (some (.client 1)),
     .nothing, .returned none] := by decide +kernel

/-- The hypotheses of `C86_error` are met with a name of 2000 bytes, whose message is cut off. -/
example : ∃ msg, expand (tag "could not open file '%s'") [.str (List.replicate 2000 65 ++ [0])] = some msg ∧ msg.length = 2022 := by
  refine ⟨_, expand_str (tag "could not open file '") (tag "'") _ _ (by decide) (by decide) (cstr_ok [] fun h => ?_), ?_⟩
  · have := List.eq_of_mem_replicate h
    revert this; decide
  · have h1 : (tag "could not open file '").length = 21 := by decide
    have h2 : (tag "'").length = 1 := by decide
    simp only [List.length_append, List.length_replicate, h1, h2]

/-- Those of `C86_apple_refuted`: a file that ends after the third of ten bytes of the name, and a client with a handler. -/
example : inForce [.set (some (.client 1))] = some (.client 1) ∧ (tag "MAC").length < (10 : Byte).toNat ∧ 0 ∉ tag "MAC" := by decide

end AF.ErrorReport
