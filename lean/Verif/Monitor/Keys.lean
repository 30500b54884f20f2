/-
The two requests about keys.
-/
import Verif.Monitor.Step

namespace Verif.Monitor

open Wire Spec
open Auth.Spec (Fulfils steps Usable Multi RootMay Sat stepOf Known)

variable {w : World} {c : Cfg} {as : List Act} {g : Option KeyOpts.Opts × List KeyOpts.Opts} {ev : Ev}
  {st st1 : St} {e : Ent} {v : Bool} {a : Act} {m : Bytes}

theorem sessionId_of_sid (hi : InvA w c as g st) {s : Bytes} (h : st.sid = some s) : SessionId as s :=
  hi.sid s h

/-- the part of the record that does not concern keys, for a request about keys -/
theorem invA_key {g' : Option KeyOpts.Opts × List KeyOpts.Opts} {a : Act} {st' : St} (hi : InvA w c as g st)
    (hk : kind a = .keyallowed ∨ kind a = .keyverify)
    (hperm : ∀ r, st'.permit r = true → PermI (as ++ [a]) r)
    (hkey : ∀ ks, st'.key = some ks → a = .keyAllowed ks.user ks.blob ks.cuser ks.chost true ∧
      (∃ b, w.parse b = some ks.blob) ∧ (ks.user = true → g'.1 = some ks.opts) ∧
      (∀ p ∈ usedKeys w (as ++ [a]), w.samePublic ks.blob p = false))
    (hno : ∀ k cu ch, a = .keyAllowed false k cu ch true → g'.1 = none)
    (hprev : st'.prevKeys = usedKeys w (as ++ [a]))
    (hopts : st'.opts = mergeAll g'.2)
    (he : st'.attempt = st.attempt ∧ st'.user = st.user ∧ st'.uid = st.uid ∧ st'.valid = st.valid ∧
      st'.style = st.style ∧ st'.sid = st.sid ∧ st'.pamCtx = st.pamCtx ∧ st'.pamOk = st.pamOk) :
    InvA w c (as ++ [a]) g' st' := by
  obtain ⟨e1, e2, e3, e4, e5, e6, e7, e8⟩ := he
  have n1 : kind a ≠ .pwnam := by rcases hk with h | h <;> simp [h]
  have n2 : kind a ≠ .authserv := by rcases hk with h | h <;> simp [h]
  have n3 : kind a ≠ .pamInit := by rcases hk with h | h <;> simp [h]
  have n4 : kind a ≠ .pamFree := by rcases hk with h | h <;> simp [h]
  have n5 : kind a ≠ .pamQuery := by rcases hk with h | h <;> simp [h]
  have n6 : kind a ≠ .pamRespond := by rcases hk with h | h <;> simp [h]
  have n7 : kind a ≠ .pamStart := by rcases hk with h | h <;> simp [h]
  have n8 : kind a ≠ .banner := by rcases hk with h | h <;> simp [h]
  have n9 : kind a ≠ .sign := by rcases hk with h | h <;> simp [h]
  have hl : last [.keyallowed, .keyverify] (as ++ [a]) = some a := by
    rw [last_snoc, if_pos (by rcases hk with h | h <;> simp [h])]
  constructor
  · exact hperm
  · simp only [served_snoc]; rintro (h | h)
    · exact Or.inl (hi.order1 h)
    · exact absurd h n1
  · simp only [served_snoc]; rintro (h | h)
    · exact Or.inl (hi.order2 h)
    · exact absurd h n2
  · simp only [served_snoc]; rintro (h | h)
    · exact Or.inl (hi.order3 h)
    · exact absurd h n7
  · simp only [served_snoc]; rintro (h | h)
    · exact Or.inl (hi.order4 h)
    · exact absurd h n8
  · simp only [served_snoc]; rintro ((h | h) | (h | h))
    · exact Or.inl (hi.order5 (Or.inl h))
    · exact absurd h n3
    · exact Or.inl (hi.order5 (Or.inr h))
    · exact absurd h n4
  · rw [e1, hi.attempt]; simp [served_snoc, n1]
  · intro u hu
    rw [e2, e3]
    exact hi.who u (mem_other hu (fun h => n1 h.symm))
  · intro h
    rw [e4]
    exact hi.nobody fun h' => h ((served_snoc _ _ _).2 (Or.inl h'))
  · rw [e4, e3]; exact hi.valid
  · intro s hs
    rw [e5]
    exact hi.style s (mem_other hs (fun h => n2 h.symm))
  · intro h
    rw [e6] at h
    rw [served_snoc]
    rintro (h' | h')
    · exact hi.noSid h h'
    · exact n9 h'
  · intro s hs
    rw [e6] at hs
    exact sessionId_snoc (hi.sid s hs) a
  · rw [e7, talking_quiet n3 n4]; exact hi.talking
  · rw [e8, ok_quiet n3 n4 n5 n6]; exact hi.pamOk
  · intro ks hks
    rw [hl]
    obtain ⟨k1, k2⟩ := hkey ks hks
    exact ⟨by rw [k1], k2⟩
  · intro k cu ch h
    rw [hl] at h
    simp only [Option.some.injEq] at h
    exact hno k cu ch h
  · exact hprev
  · exact hopts

/-- What an approval means. -/
def Approved (w : World) (c : Cfg) (as : List Act) (ans : Ans) : Act → Prop
  | .keyAllowed true key _ _ true =>
    c.auth.enabled b!"publickey" = true ∧ w.userAlg key = true ∧ ans.userKey ≠ none ∧
      ∀ p ∈ usedKeys w as, w.samePublic key p = false
  | .keyAllowed false key _ _ true =>
    c.auth.enabled b!"hostbased" = true ∧ w.hostAlg key = true ∧ ans.hostKey = true ∧
      ∀ p ∈ usedKeys w as, w.samePublic key p = false
  | _ => True

theorem not_used (hi : InvA w c as g st) {key : Bytes} (h : alreadyUsed w st key = false) :
    ∀ p ∈ usedKeys w as, w.samePublic key p = false := by
  intro p hp
  unfold alreadyUsed at h
  rw [hi.prev, List.any_eq_false] at h
  simpa using h p hp

theorem userKey_some (hi : InvA w c as g st) {key : Bytes} {an : Ans} {o : KeyOpts.Opts}
    (h : userKeyAllowed w c st key an = some o) :
    c.auth.enabled b!"publickey" = true ∧ w.userAlg key = true ∧ an.userKey = some o ∧
      ∀ p ∈ usedKeys w as, w.samePublic key p = false := by
  unfold userKeyAllowed at h
  split at h
  · rename_i h1
    split at h
    · simp at h
    · rename_i h2
      split at h
      · rename_i h3
        exact ⟨h1, h3, h, not_used hi (by simpa using h2)⟩
      · simp at h
  · simp at h

theorem hostKey_some (hi : InvA w c as g st) {key : Bytes} {an : Ans}
    (h : hostKeyAllowed w c st key an = true) :
    c.auth.enabled b!"hostbased" = true ∧ w.hostAlg key = true ∧ an.hostKey = true ∧
      ∀ p ∈ usedKeys w as, w.samePublic key p = false := by
  unfold hostKeyAllowed at h
  split at h
  · rename_i h1
    split at h
    · simp at h
    · rename_i h2
      split at h
      · rename_i h3
        exact ⟨h1, h3, h, not_used hi (by simpa using h2)⟩
      · simp at h
  · simp at h

theorem parseAllowed_some {t : Nat} {cu ch key : Bytes} (h : parseAllowed w m = some (t, cu, ch, key)) :
    ∃ b, w.parse b = some key := by
  unfold parseAllowed at h
  simp only [Option.bind_eq_bind, Option.bind_eq_some_iff, Prod.exists, Option.pure_def,
    Option.some.injEq, Prod.mk.injEq] at h
  obtain ⟨_, _, _, _, _, _, _, _, _, k, _, _, key', hk, _, _, _, _, _, _, rfl⟩ := h
  exact ⟨_, hk⟩

theorem good_keyallowed (hi : InvA w c as g st) (he : e ∈ preTable) (hr : e.req = .keyallowed)
    (hp : st.permit e.req = true) (h : answerKeyAllowed w c st m ev.ans = .ret v st1 a) :
    Good w c as g ev st e v st1 a ∧ Approved w c as ev.ans a := by
  have hpi := hi.perm _ hp
  rw [hr] at hpi
  unfold answerKeyAllowed at h
  split at h
  · simp at h
  · rename_i t cu ch key hparse
    obtain ⟨kb, hkb⟩ := parseAllowed_some hparse
    split at h
    · split at h
      · rw [Res.ret.injEq] at h
        obtain ⟨rfl, rfl, rfl⟩ := h
        refine ⟨⟨?_, by rw [hr]; exact hpi, hr.symm, by simp, fun _ => ⟨rfl, rfl⟩, rfl, by simp [hr]⟩, ?_⟩
        · intro o ho
          have hrest := useOnce_rest e { st with
            method := b!"publickey"
            key := userKeySt key cu ch (userKeyAllowed w c st key ev.ans) }
          obtain ⟨r1, r2, r3, r4, r5, r6, r7, r8, r9, r10, r11, _⟩ := hrest
          refine invA_key hi (Or.inl rfl) (perm_after hi he hr.symm fun r h => Or.inl h) ?_ ?_ ?_ ?_
            ⟨r1, r2, r3, r4, r5, r6, r10, r11⟩
          · intro ks hks
            rw [r7] at hks
            cases hu : userKeyAllowed w c st key ev.ans with
            | none => simp [hu, userKeySt] at hks
            | some op =>
              simp only [hu, userKeySt, Option.some.injEq] at hks
              subst hks
              obtain ⟨u1, u2, u3, u4⟩ := userKey_some hi hu
              refine ⟨by simp, ⟨kb, hkb⟩, ?_, ?_⟩
              · intro _
                simp only [grantStep, ho, hu, Option.isSome_some]
                exact u3
              · rw [usedKeys_snoc _ _ _ (Or.inr (by simp [kind]))]
                exact u4
          · simp
          · rw [r8, usedKeys_snoc _ _ _ (Or.inr (by simp [kind]))]; exact hi.prev
          · rw [r9, hi.opts]
            congr 1
            simp only [grantStep, ho]
            cases hu : (userKeyAllowed w c st key ev.ans).isSome <;> simp
        · cases hu : userKeyAllowed w c st key ev.ans with
          | none => simp [Approved]
          | some op =>
            obtain ⟨u1, u2, u3, u4⟩ := userKey_some hi hu
            simp only [Option.isSome_some, Approved]
            exact ⟨u1, u2, by simp [u3], u4⟩
      · split at h
        · rw [Res.ret.injEq] at h
          obtain ⟨rfl, rfl, rfl⟩ := h
          refine ⟨⟨?_, by rw [hr]; exact hpi, hr.symm, by simp, fun _ => ⟨rfl, rfl⟩, rfl, by simp [hr]⟩, ?_⟩
          · intro o ho
            have hrest := useOnce_rest e { st with
              method := b!"hostbased"
              key := if hostKeyAllowed w c st key ev.ans then
                some { blob := key, user := false, opts := {}, cuser := cu, chost := ch } else none }
            obtain ⟨r1, r2, r3, r4, r5, r6, r7, r8, r9, r10, r11, _⟩ := hrest
            refine invA_key hi (Or.inl rfl) (perm_after hi he hr.symm fun r h => Or.inl h) ?_ ?_ ?_ ?_
              ⟨r1, r2, r3, r4, r5, r6, r10, r11⟩
            · intro ks hks
              rw [r7] at hks
              cases hu : hostKeyAllowed w c st key ev.ans with
              | false => simp [hu] at hks
              | true =>
                simp only [hu, if_true, Option.some.injEq] at hks
                subst hks
                obtain ⟨u1, u2, u3, u4⟩ := hostKey_some hi hu
                refine ⟨rfl, ⟨kb, hkb⟩, by simp, ?_⟩
                rw [usedKeys_snoc _ _ _ (Or.inr (by simp [kind]))]
                exact u4
            · intro k cu ch h
              simp only [grantStep, ho]
            · rw [r8, usedKeys_snoc _ _ _ (Or.inr (by simp [kind]))]; exact hi.prev
            · rw [r9, hi.opts]
              congr 1
              simp only [grantStep, ho]
          · cases hu : hostKeyAllowed w c st key ev.ans with
            | false => simp [Approved]
            | true => exact hostKey_some hi hu
        · simp at h
    · rw [Res.ret.injEq] at h
      obtain ⟨rfl, rfl, rfl⟩ := h
      refine ⟨⟨?_, by rw [hr]; exact hpi, hr.symm, by simp, fun _ => ⟨rfl, rfl⟩, rfl, by simp [hr]⟩, ?_⟩
      · intro o ho
        have hrest := useOnce_rest e { st with key := none }
        obtain ⟨r1, r2, r3, r4, r5, r6, r7, r8, r9, r10, r11, _⟩ := hrest
        refine invA_key hi (Or.inl rfl) (perm_after hi he hr.symm fun r h => Or.inl h) ?_ ?_ ?_ ?_
          ⟨r1, r2, r3, r4, r5, r6, r10, r11⟩
        · intro ks hks
          rw [r7] at hks
          simp at hks
        · simp
        · rw [r8, usedKeys_snoc _ _ _ (Or.inr (by simp [kind]))]; exact hi.prev
        · rw [r9, hi.opts]
          congr 1
          simp only [grantStep, ho]
          cases decide (t = 2) <;> rfl
      · simp [Approved]

/-- What a security key must have done. -/
def Touched (c : Cfg) (o : KeyOpts.Opts) (flags : Nat) : Prop :=
  ((c.touch = true ∨ o.noPresence = false) → flags &&& 1 ≠ 0) ∧
  ((c.uv = true ∨ o.verify = true) → flags &&& 4 ≠ 0)

/-- What an answer about a signature means; `pend` are the options of the approved key. -/
def Verified (w : World) (c : Cfg) (as : List Act) (pend : Option KeyOpts.Opts) (st : St) : Act → Prop
  | .keyVerify blob sig d alg ok => ∃ user cu ch sid key,
      last [.keyallowed, .keyverify] as = some (.keyAllowed user blob cu ch true) ∧
      SessionId as sid ∧ (if user then UserRequest w c sid (userStyle st) d
        else HostRequest sid (userStyle st) cu ch d) ∧
      w.parse blob = some key ∧ (∃ b, w.parse b = some blob) ∧
      (∀ p ∈ usedKeys w as, w.samePublic blob p = false) ∧
      (ok = true → ∃ sk, w.verify key sig d (if alg = [] then none else some alg) = some sk ∧
        (user = true → ∃ o, pend = some o ∧ ∀ f, sk = some f → Touched c o f))
  | _ => True

theorem skOk_touched {o : KeyOpts.Opts} {f : Nat} (h : skOk c o (some f) = true) : Touched c o f := by
  simp only [skOk, Bool.and_eq_true, Bool.not_eq_true', Bool.and_eq_false_iff, Bool.or_eq_false_iff,
    Bool.not_eq_false', decide_eq_false_iff_not] at h
  obtain ⟨h1, h2⟩ := h
  constructor
  · intro hx
    rcases h1 with ⟨h1, h1'⟩ | h1
    · rcases hx with hx | hx
      · simp [hx] at h1
      · simp [hx] at h1'
    · exact h1
  · intro hx
    rcases h2 with ⟨h2, h2'⟩ | h2
    · rcases hx with hx | hx
      · simp [hx] at h2
      · simp [hx] at h2'
    · exact h2

theorem usedKeys_yes {b s d al : Bytes} {key : Bytes} (h : w.parse b = some key) :
    usedKeys w (as ++ [.keyVerify b s d al true]) = key :: usedKeys w as := by
  simp [usedKeys, List.filterMap_append, h]

theorem mergeAll_snoc (gs : List KeyOpts.Opts) (o : KeyOpts.Opts) :
    mergeAll (gs ++ [o]) = (mergeAll gs).bind fun p => KeyOpts.merge p o := by
  simp [mergeAll]

theorem good_keyverify (hi : InvA w c as g st) (he : e ∈ preTable) (hr : e.req = .keyverify)
    (hp : st.permit e.req = true) (h : answerKeyVerify w c st m = .ret v st1 a) :
    Good w c as g ev st e v st1 a ∧ Verified w c as g.1 st a := by
  have hpi := hi.perm _ hp
  rw [hr] at hpi
  unfold answerKeyVerify at h
  split at h
  · simp at h
  · rename_i blob sig d alg hparse
    split at h
    · simp at h
    · rename_i ks hks
      split at h
      · rename_i hblob
        split at h
        · simp at h
        · rename_i key hkey
          split at h
          · rename_i hvd
            split at h
            · simp at h
            · rename_i op hop
              rw [Res.ret.injEq] at h
              obtain ⟨rfl, rfl, rfl⟩ := h
              obtain ⟨k1, k2, k3, k4⟩ := hi.key ks hks
              rw [hblob] at k1 k2 k4
              generalize hok : sigCounts w c ks key sig d alg = ok at *
              refine ⟨⟨?_, by rw [hr]; exact ⟨hpi, _, _, _, _, k1⟩, hr.symm, ?_, fun _ => ⟨rfl, rfl⟩,
                rfl, by simp [hr]⟩, ?_⟩
              · intro o ho
                have hrest := useOnce_rest e { st with
                  method := if ks.user then b!"publickey" else b!"hostbased", key := none,
                  opts := op, prevKeys := if ok then key :: st.prevKeys else st.prevKeys }
                obtain ⟨r1, r2, r3, r4, r5, r6, r7, r8, r9, r10, r11, _⟩ := hrest
                refine invA_key hi (Or.inr rfl) (perm_after hi he hr.symm fun r h => Or.inl h)
                  ?_ ?_ ?_ ?_ ⟨r1, r2, r3, r4, r5, r6, r10, r11⟩
                · intro ks hks
                  rw [r7] at hks
                  simp at hks
                · simp
                · rw [r8]
                  cases ok with
                  | true => rw [usedKeys_yes hkey, hi.prev]; simp
                  | false =>
                    rw [usedKeys_snoc _ _ _ (Or.inl rfl), hi.prev]; simp
                · rw [r9]
                  simp only
                  unfold activate at hop
                  cases ok with
                  | false =>
                    simp only [Bool.and_false, Bool.false_eq_true, if_false, Option.some.injEq] at hop
                    rw [← hop, hi.opts]
                    congr 1
                    simp only [grantStep, ho]
                  | true =>
                    cases hu : ks.user with
                    | false =>
                      simp only [hu, Bool.false_and, Bool.false_eq_true, if_false,
                        Option.some.injEq] at hop
                      rw [← hop, hi.opts]
                      congr 1
                      rw [hu] at k1
                      simp [grantStep, ho, hi.noUser _ _ _ k1]
                    | true =>
                      simp only [hu, Bool.and_self, if_true] at hop
                      split at hop
                      · simp at hop
                      · rename_i p hpo
                        simp only [Option.some.injEq] at hop
                        rw [← hop]
                        simp only [grantStep, ho, k3 hu, Option.toList_some]
                        rw [mergeAll_snoc, ← hi.opts, hpo]
                        rfl
              · intro hv; exact Or.inl hv
              · obtain ⟨sid, hsid, hreq⟩ : ∃ sid, st.sid = some sid ∧
                    (if ks.user then UserRequest w c sid (userStyle st) d
                      else HostRequest sid (userStyle st) ks.cuser ks.chost d) := by
                  unfold validData at hvd
                  simp only [decide_eq_true_eq] at hvd
                  cases hu : ks.user with
                  | true => simp only [hu, if_true] at hvd ⊢; exact userblob_spec hvd
                  | false =>
                    simp only [hu, Bool.false_eq_true, if_false] at hvd ⊢; exact hostblob_spec hvd
                refine ⟨ks.user, ks.cuser, ks.chost, sid, key, k1, hi.sid _ hsid, hreq, hkey, k2, k4, ?_⟩
                intro hv
                subst hv
                unfold sigCounts at hok
                split at hok
                · simp at hok
                · rename_i sk hsk
                  refine ⟨sk, hsk, ?_⟩
                  intro hu
                  simp only [hu, if_true] at hok
                  refine ⟨ks.opts, k3 hu, ?_⟩
                  intro f hf
                  subst hf
                  exact skOk_touched hok
          · simp at h
      · simp at h

end Verif.Monitor
