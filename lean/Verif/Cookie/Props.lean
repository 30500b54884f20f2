/-
C143: the cookie of the display stays at the client. C144: X11 that is not trusted gets a cookie that is not trusted.
-/
import Verif.Cookie.Model
import Verif.Dns.Props
import Verif.Target.Jump

namespace Verif.Cookie
open Verif
open _root_.Verif.Wire (str be)
open _root_.Verif.Dyn (Saved xOpen xLens pad4)
open _root_.Verif.Dns (hex Hex hexValue hex_ok)
open _root_.Verif.Scp (dec)
open _root_.Verif.Target (reads Harmless spaced Tok spaced_cons dec_harmless inert_of_harmless reads_append harmless_name)

/-! ### C143 -/

/-- `sscanf` reads two digits as the number they spell; random bytes are as many as asked for. -/
structure Sound (w : World) : Prop where
  scan2 : ∀ c d x y rest, hexValue c = some x → hexValue d = some y → w.scan2 (c :: d :: rest) = some (16 * x + y)
  rand : ∀ n, (w.rand n).length = n

theorem hex_len {s v : Bytes} (h : Hex s v) : s.length = 2 * v.length := by
  induction h with
  | nil => rfl
  | cons _ _ _ _ ih => simp only [List.length_cons, ih]; omega

theorem realBytes_hex {w : World} (hw : Sound w) {s v : Bytes} (h : Hex s v) : realBytes w v.length s = some v := by
  induction h with
  | nil => rfl
  | @cons c d b l v x y h1 h2 h3 _ ih =>
    simp only [List.length_cons, realBytes, hw.scan2 _ _ _ _ _ h1 h2, Option.bind_some, List.drop_succ_cons, List.drop_zero, ih, Option.map_some, ← h3,
      UInt8.ofNat_toNat]

theorem realBytes_length {w : World} {n : Nat} {s v : Bytes} (h : realBytes w n s = some v) : v.length = n := by
  induction n generalizing s v with
  | zero => cases h; rfl
  | succ n ih =>
    obtain ⟨x, _, h2⟩ := Option.bind_eq_some_iff.1 h
    obtain ⟨y, h3, rfl⟩ := Option.map_eq_some_iff.1 h2
    simp [ih h3]

/-- Requests that differ only in the real cookie, not in its length -/
def Alike (w : World) (r r' : Req) : Prop :=
  r.disp = r'.disp ∧ r.proto = r'.proto ∧ r.data.length / 2 = r'.data.length / 2 ∧
    (realBytes w (r.data.length / 2) r.data = none ↔ realBytes w (r'.data.length / 2) r'.data = none)

/-- states that differ only in the real cookie -/
def Related (s s' : St) : Prop :=
  s.display = s'.display ∧ s.saved.map (fun v => (v.proto, v.fake)) = s'.saved.map (fun v => (v.proto, v.fake))

theorem request_related {w : World} {s s' : St} {r r' : Req} (hs : Related s s') (hr : Alike w r r') :
    Related (request w s r).1 (request w s' r').1 ∧ (request w s r).2 = (request w s' r').2 := by
  obtain ⟨h1, h2⟩ := hs
  obtain ⟨e1, e2, e3, e4⟩ := hr
  unfold request
  rw [h1, e1]
  split
  · exact ⟨⟨h1, h2⟩, rfl⟩
  · cases hv : s.saved with
    | some v =>
      cases hv' : s'.saved with
      | none => rw [hv, hv'] at h2; cases h2
      | some v' =>
        rw [hv, hv'] at h2
        simp only [Option.map_some, Option.some.injEq, Prod.mk.injEq] at h2
        simp only [e3, h2.2, e2]
        split
        · exact ⟨⟨rfl, by simp [h2.1, h2.2]⟩, rfl⟩
        · exact ⟨⟨rfl, by simp [h2.1, h2.2]⟩, rfl⟩
    | none =>
      cases hv' : s'.saved with
      | some v' => rw [hv, hv'] at h2; cases h2
      | none =>
        cases hb : realBytes w (r.data.length / 2) r.data with
        | none =>
          rw [e4.1 hb]
          exact ⟨⟨rfl, rfl⟩, rfl⟩
        | some x =>
          cases hb' : realBytes w (r'.data.length / 2) r'.data with
          | none => rw [e4.2 hb'] at hb; cases hb
          | some x' => exact ⟨⟨rfl, by simp [e2, e3]⟩, by simp [e2, e3]⟩

theorem run_cons (w : World) (s : St) (r : Req) (l : List Req) : run w s (r :: l) =
    if (request w s r).2 = .fatal ∨ (request w s r).2 = .overread then ((request w s r).1, [(request w s r).2])
    else ((run w (request w s r).1 l).1, (request w s r).2 :: (run w (request w s r).1 l).2) := by
  rw [run]
  generalize request w s r = x
  obtain ⟨s', r'⟩ := x
  cases r' <;> simp

theorem run_related {w : World} : ∀ {l : List (Req × Req)} {s s' : St}, Related s s' → (∀ p ∈ l, Alike w p.1 p.2) →
    (run w s (l.map Prod.fst)).2 = (run w s' (l.map Prod.snd)).2 := by
  intro l
  induction l with
  | nil => intro s s' _ _; rfl
  | cons p l ih =>
    intro s s' hs h
    obtain ⟨h1, h2⟩ := request_related hs (h p (by simp))
    rw [List.map_cons, List.map_cons, run_cons, run_cons, h2]
    split
    · rfl
    · simp only [ih h1 fun x hx => h x (by simp [hx])]

/-- C143: what is sent to the server in all sessions of a connection is the same, whatever the real cookies are, as long as they have the same lengths. -/
theorem C143_hidden {w : World} {l : List (Req × Req)} (h : ∀ p ∈ l, Alike w p.1 p.2) :
    (run w fresh (l.map Prod.fst)).2 = (run w fresh (l.map Prod.snd)).2 :=
  run_related ⟨rfl, rfl⟩ h

/-- What stays as it is once set -/
theorem request_kept {w : World} {s : St} {r : Req} {v : Saved} (h : s.saved = some v) : (request w s r).1.saved = some v := by
  unfold request
  split
  · exact h
  · rw [h]
    simp only
    split <;> rfl

/-- C143: the first request makes up a cookie that is as long as the real one and is kept, with the protocol and the real one; the server is told
that made-up one, in hexadecimal. -/
theorem C143_first {w : World} (hw : Sound w) {r : Req} {real : Bytes} (h : Hex r.data real) (hl : real.length ≤ 65536) :
    request w fresh r = (⟨some r.disp, some ⟨r.proto, real, w.rand real.length⟩⟩, .sent ([0] ++ (str r.proto ++ (str (hex (w.rand real.length)) ++
      be 4 (screen r.disp))))) ∧ Hex (hex (w.rand real.length)) (w.rand real.length) ∧ (w.rand real.length).length = real.length := by
  have hd : r.data.length / 2 = real.length := by rw [hex_len h]; omega
  refine ⟨?_, hex_ok _, hw.rand _⟩
  simp only [request, fresh, hd, realBytes_hex hw h]
  simp [message, tohex, hw.rand, Nat.not_lt.2 hl]

/-- C143: later sessions are told the same cookie, and what is kept does not change; those for another display are told nothing. -/
theorem C143_later {w : World} {s : St} {v : Saved} {r : Req} (hv : s.saved = some v) (hl : v.fake.length ≤ 65536) :
    (request w s r).1.saved = some v ∧
    (s.display = some r.disp → r.data.length / 2 = v.fake.length →
      (request w s r).2 = .sent ([0] ++ (str r.proto ++ (str (hex v.fake) ++ be 4 (screen r.disp))))) ∧
    (∀ d, s.display = some d → d ≠ r.disp → request w s r = (s, .refused)) := by
  refine ⟨request_kept hv, fun hd he => ?_, fun d hd hne => ?_⟩
  · simp only [request, hd, hv, he]
    simp [message, tohex, Nat.not_lt.2 hl]
  · unfold request
    rw [if_pos ⟨by rw [hd]; simp, by rw [hd]; simpa using hne⟩]

/-- What is kept: a made-up cookie as long as the real one -/
def Even (s : St) : Prop := ∀ v, s.saved = some v → v.fake.length = v.real.length

theorem request_even {w : World} (hw : Sound w) {s : St} {r : Req} (h : Even s) : Even (request w s r).1 := by
  intro v hv
  cases hs : s.saved with
  | some u =>
    rw [request_kept hs] at hv
    injection hv with hv
    exact hv ▸ h u hs
  | none =>
    unfold request at hv
    split at hv
    · rw [hs] at hv; cases hv
    · rw [hs] at hv
      simp only at hv
      split at hv
      · cases hv
      · rename_i real hr
        injection hv with hv
        subst hv
        simp only [hw.rand, realBytes_length hr]

theorem run_even {w : World} (hw : Sound w) : ∀ {l : List Req} {s : St}, Even s → Even (run w s l).1 := by
  intro l
  induction l with
  | nil => intro s h; exact h
  | cons r l ih =>
    intro s h
    rw [run_cons]
    split
    · exact request_even hw h
    · exact ih (request_even hw h)

/-- C143: whatever was requested, a connection to the display that begins with the protocol and the made-up cookie is passed on, with the real cookie in
its place and all else as it was. -/
theorem C143_reaches {w : World} (hw : Sound w) {l : List Req} {v : Saved} (hv : (run w fresh l).1.saved = some v) {b : Bytes}
    (h12 : 12 ≤ b.length) (hx : xLens b = some (v.proto.length, v.fake.length)) (hb : 12 + pad4 v.proto.length + pad4 v.fake.length ≤ b.length)
    (hp : (b.drop 12).take v.proto.length = v.proto) (hf : (b.drop (12 + pad4 v.proto.length)).take v.fake.length = v.fake) :
    xOpen v false b = (.pass, b.take (12 + pad4 v.proto.length) ++ v.real ++ b.drop (12 + pad4 v.proto.length + v.fake.length)) := by
  have he : v.fake.length = v.real.length := run_even hw (fun v h => by cases h) v hv
  have hf' : (b.drop (12 + pad4 v.proto.length)).take v.real.length = v.fake := by rw [← he]; exact hf
  simp [xOpen, Nat.not_lt.2 h12, hx, Nat.not_lt.2 hb, hp, he, hf']
  rw [← he]
  exact hb

/-- C143, in part: no memory but that of the made-up cookie is read, if no later session has a longer cookie than the first. Missing: longer ones, see
C143_safe_original_false. -/
theorem C143_safe_partial {w : World} (hw : Sound w) {r : Req} {l : List Req} (hl : ∀ x ∈ l, x.data.length / 2 ≤ r.data.length / 2) :
    .overread ∉ (run w fresh (r :: l)).2 := by
  have later : ∀ (l : List Req) (s : St) (v : Saved), s.saved = some v → (∀ x ∈ l, x.data.length / 2 ≤ v.fake.length) → .overread ∉ (run w s l).2 := by
    intro l
    induction l with
    | nil => intro s v _ _; simp [run]
    | cons x l ih =>
      intro s v hv hx
      have hne : (request w s x).2 ≠ .overread := by
        unfold request
        split
        · simp
        · rw [hv]
          simp [hx x (by simp)]
      rw [run_cons]
      split
      · simpa using fun h => hne h.symm
      · simp only [List.mem_cons, not_or]
        exact ⟨fun h => hne h.symm, ih _ v (request_kept hv) fun y hy => hx y (by simp [hy])⟩
  cases hb : realBytes w (r.data.length / 2) r.data with
  | none =>
    have e : request w fresh r = (⟨some r.disp, none⟩, .fatal) := by simp [request, fresh, hb]
    rw [run_cons, e]
    simp
  | some real =>
    have e : request w fresh r = (⟨some r.disp, some ⟨r.proto, real, w.rand (r.data.length / 2)⟩⟩,
        .sent (message r.disp r.proto (w.rand (r.data.length / 2)))) := by simp [request, fresh, hb]
    rw [run_cons, e]
    simp only [reduceCtorEq, or_false, if_false, List.mem_cons, false_or]
    exact later l _ ⟨r.proto, real, _⟩ rfl (by simpa [hw.rand] using hl)

/-! ### C144 -/

/-- Where the private file is -/
def file (dir : Bytes) : Bytes := dir ++ b!"/xauthfile"

/-- C144: X11 that is not trusted gets a cookie only from a file of its own, in a directory made for it, after a cookie that is not trusted was made
there; all commands name that file. Otherwise there is no forwarding; a made-up cookie is not fallen back to. -/
theorem C144_untrusted {x : Xauth} {display : Option Bytes} {timeout refuse : Nat} :
    (∀ c, (getProto x display false timeout refuse).cookie = some c → ∃ p dir d disp, x.there = true ∧ x.path = some p ∧ x.dir = some dir ∧ display = some d ∧
      xdisplay d = some disp ∧ x.gen (genCmd p (file dir) disp timeout) = true ∧ (x.list (listCmd p (some (file dir)) disp)).bind scan = some c) ∧
    (∀ cmd ∈ (getProto x display false timeout refuse).cmds, ∃ p dir rest, x.path = some p ∧ x.dir = some dir ∧
      cmd = p ++ (b!" -f " ++ (file dir ++ rest))) := by
  have fin : ∀ line r cmds, (finish x false line r cmds).cookie = line.bind scan ∧ (finish x false line r cmds).cmds = cmds := by
    intro line r cmds
    unfold finish
    cases line.bind scan <;> exact ⟨rfl, rfl⟩
  unfold getProto
  cases display with
  | none => exact ⟨fun c h => (by cases h), fun c h => (by cases h)⟩
  | some d =>
    simp only
    split
    · exact ⟨fun c h => (by cases h), fun c h => (by cases h)⟩
    · cases hp : (if x.there then x.path else none) with
      | none =>
        simp only
        exact ⟨fun c h => (by rw [(fin _ _ _).1] at h; cases h), fun c h => (by rw [(fin _ _ _).2] at h; cases h)⟩
      | some p =>
        have hth : x.there = true ∧ x.path = some p := by
          cases ht : x.there with
          | false => rw [ht] at hp; cases hp
          | true => rw [ht] at hp; exact ⟨rfl, hp⟩
        simp only
        cases hd : xdisplay d with
        | none => exact ⟨fun c h => (by cases h), fun c h => (by cases h)⟩
        | some disp =>
          simp only [withXauth, Bool.false_eq_true, if_false]
          cases hdir : x.dir with
          | none => exact ⟨fun c h => (by cases h), fun c h => (by cases h)⟩
          | some dir =>
            simp only
            split
            · exact ⟨fun c h => (by cases h), fun c h => (by cases h)⟩
            · have g : ∃ rest, genCmd p (file dir) disp timeout = p ++ (b!" -f " ++ (file dir ++ rest)) := by
                simp only [genCmd, List.append_assoc]
                exact ⟨_, rfl⟩
              have l : ∃ rest, listCmd p (some (file dir)) disp = p ++ (b!" -f " ++ (file dir ++ rest)) := by
                simp only [listCmd, List.append_assoc, Option.elim]
                exact ⟨_, rfl⟩
              split
              · rename_i hg
                refine ⟨fun c h => ⟨p, dir, d, disp, hth.1, hth.2, rfl, rfl, hd, hg, ?_⟩, fun c h => ?_⟩
                · rw [(fin _ _ _).1] at h
                  exact h
                · rw [(fin _ _ _).2] at h
                  simp only [List.mem_cons, List.not_mem_nil, or_false] at h
                  rcases h with rfl | rfl
                  · obtain ⟨r, hr⟩ := g; exact ⟨p, dir, r, hth.2, rfl, hr⟩
                  · obtain ⟨r, hr⟩ := l; exact ⟨p, dir, r, hth.2, rfl, hr⟩
              · refine ⟨fun c h => (by rw [(fin _ _ _).1] at h; cases h), fun c h => ?_⟩
                rw [(fin _ _ _).2] at h
                rw [List.mem_singleton.1 h]
                obtain ⟨r, hr⟩ := g; exact ⟨p, dir, r, hth.2, rfl, hr⟩

/-- Words of a command, then its complaints are thrown away -/
def quietly (words : List Bytes) : List Tok := spaced words ++ (.op 32 :: .lit 50 :: .op 62 :: (b!"/dev/null").map .lit)

/-- The words that make a cookie which is not trusted -/
def genWords (path file disp : Bytes) (timeout : Nat) : List Bytes :=
  [path, b!"-f", file, b!"generate", disp, b!"MIT-MAGIC-COOKIE-1", b!"untrusted"] ++ (if timeout = 0 then [] else [b!"timeout", dec (lifetime timeout)])

theorem plain_of {w : Bytes} (h : ∀ c ∈ w, Harmless c) : reads .plain w = (.plain, w.map .lit) := by
  cases w with
  | nil => rfl
  | cons c l => exact inert_of_harmless h .plain (by simp)

theorem plain_append {a b : Bytes} {s t : List Tok} (h1 : reads .plain a = (.plain, s)) (h2 : reads .plain b = (.plain, t)) :
    reads .plain (a ++ b) = (.plain, s ++ t) := by
  rw [reads_append, h1]
  simp only [h2]

theorem harmless_display {d disp : Bytes} (h : displayValid d = true) (hd : xdisplay d = some disp) : ∀ c ∈ disp, Harmless c := by
  have h1 : ∀ n < 256, (isAlnum (UInt8.ofNat n) || decide (UInt8.ofNat n ∈ b!":/.-_")) = true →
      UInt8.ofNat n ≠ 39 ∧ UInt8.ofNat n ≠ 34 ∧ UInt8.ofNat n ≠ 92 ∧ UInt8.ofNat n ∉ Target.metas := by decide +kernel
  have hv : ∀ c ∈ d, Harmless c := fun c hc => by
    have := h1 c.toNat c.toNat_lt (by simpa using List.all_eq_true.1 h c hc)
    simpa [Harmless] using this
  unfold xdisplay at hd
  split at hd
  · split at hd
    · cases hd
    · injection hd with hd
      subst hd
      intro c hc
      rcases List.mem_append.1 hc with hc | hc
      · have : ∀ c ∈ b!"unix:", c ≠ 39 ∧ c ≠ 34 ∧ c ≠ 92 ∧ c ∉ Target.metas := by decide
        exact this c hc
      · exact hv c ((List.drop_sublist _ _).subset hc)
  · injection hd with hd
    exact hd ▸ hv

/-- C144: a shell reads the commands as the words they are meant to be, with the name of the display as one word, whatever that is. -/
theorem C144_words {path f d disp : Bytes} (timeout : Nat) (hv : displayValid d = true) (hd : xdisplay d = some disp)
    (hp : ∀ c ∈ path, Harmless c) (hf : ∀ c ∈ f, Harmless c) :
    reads .plain (genCmd path f disp timeout) = (.plain, quietly (genWords path f disp timeout)) ∧
    reads .plain (listCmd path (some f) disp) = (.plain, quietly [path, b!"-f", f, b!"list", disp]) ∧
    reads .plain (listCmd path none disp) = (.plain, path.map .lit ++ .op 32 :: .op 32 :: quietly [b!"list", disp]) := by
  have p1 := plain_of hp
  have p2 := plain_of hf
  have p3 := plain_of (harmless_display hv hd)
  have e : reads .plain b!" 2>/dev/null" = (.plain, .op 32 :: .lit 50 :: .op 62 :: (b!"/dev/null").map .lit) := by decide
  have a1 : reads .plain b!" -f " = (.plain, .op 32 :: (b!"-f").map .lit ++ [.op 32]) := by decide
  have a2 : reads .plain b!" generate " = (.plain, .op 32 :: (b!"generate").map .lit ++ [.op 32]) := by decide
  have a3 : reads .plain b!" MIT-MAGIC-COOKIE-1 untrusted" =
      (.plain, .op 32 :: (b!"MIT-MAGIC-COOKIE-1").map .lit ++ .op 32 :: (b!"untrusted").map .lit) := by decide
  have a4 : reads .plain (if timeout = 0 then [] else b!" timeout " ++ dec (lifetime timeout)) =
      (.plain, (if timeout = 0 then [] else [b!"timeout", dec (lifetime timeout)]).flatMap fun w => .op 32 :: w.map .lit) := by
    by_cases ht : timeout = 0
    · rw [if_pos ht, if_pos ht]; rfl
    · rw [if_neg ht, if_neg ht]
      have := plain_append (a := b!" timeout ") (s := .op 32 :: (b!"timeout").map .lit ++ [.op 32]) (by decide) (plain_of (dec_harmless (lifetime timeout)))
      simpa using this
  have a5 : reads .plain b!" list " = (.plain, .op 32 :: (b!"list").map .lit ++ [.op 32]) := by decide
  have a6 : reads .plain b!" " = (.plain, [.op 32]) := by decide
  have a7 : reads .plain b!"-f " = (.plain, (b!"-f").map .lit ++ [.op 32]) := by decide
  refine ⟨?_, ?_, ?_⟩
  · have all := plain_append (plain_append (plain_append (plain_append (plain_append (plain_append (plain_append p1 a1) p2) a2) p3) a3) a4) e
    refine all.trans ?_
    rw [quietly, genWords]
    simp only [List.cons_append, List.nil_append, spaced_cons]
    simp
  · have all := plain_append (plain_append (plain_append (plain_append (plain_append p1 a6) (plain_append a7 p2)) a5) p3) e
    refine all.trans ?_
    rw [quietly]
    simp only [spaced_cons]
    simp
  · have all := plain_append (plain_append (plain_append (plain_append (plain_append p1 a6) (show reads .plain [] = (.plain, []) from rfl)) a5) p3) e
    refine all.trans ?_
    rw [quietly]
    simp only [spaced_cons]
    simp

/-- C144: no command is run, and nothing forwarded, for a display whose name has characters other than letters, digits and `:/.-_`. -/
theorem C144_display {x : Xauth} {d : Bytes} {trusted : Bool} {timeout refuse : Nat}
    (h : ∃ c ∈ d, ¬(48 ≤ c ∧ c ≤ 57 ∨ 65 ≤ c ∧ c ≤ 90 ∨ 97 ≤ c ∧ c ≤ 122 ∨ c ∈ b!":/.-_")) :
    getProto x (some d) trusted timeout refuse = ⟨none, refuse, []⟩ := by
  have : displayValid d = false := by
    obtain ⟨c, hc, hn⟩ := h
    rw [displayValid, List.all_eq_false]
    refine ⟨c, hc, ?_⟩
    simp only [isAlnum, Bool.or_eq_true, decide_eq_true_eq]
    intro hh
    apply hn
    rcases hh with (hh | hh | hh) | hh
    · exact .inl hh
    · exact .inr (.inl hh)
    · exact .inr (.inr (.inl hh))
    · exact .inr (.inr (.inr hh))
  simp only [getProto, this, if_true]

/-- C144: with a timeout, X11 is refused from one second after it has passed, and the cookie, made later than `now`, is valid for longer than that; once
set, the time from which on X11 is refused stays. Without one it is never refused. -/
theorem C144_outlives {now timeout old : Nat} (hn : now + 1 < 2147483648) (ht : timeout < 2147483648) :
    (timeout ≠ 0 → refuseTime 0 now timeout = now + 1 + timeout ∧ refuseTime 0 now timeout < now + lifetime timeout) ∧
    (old ≠ 0 → refuseTime old now timeout = old) ∧ refuseTime old now 0 = old := by
  refine ⟨fun h => ?_, fun h => ?_, ?_⟩
  · have e : refuseTime 0 now timeout = now + 1 + timeout := by
      rw [refuseTime, if_pos ⟨h, rfl⟩, if_neg (by simp only [timeMax]; omega)]
      omega
    refine ⟨e, ?_⟩
    rw [e, lifetime, if_pos (by omega)]
    omega
  · rw [refuseTime, if_neg (by simp [h])]
  · rw [refuseTime, if_neg (by simp)]

/-- C144: trusted X11 uses the cookie that xauth lists for the display, or a random one where there is none. -/
theorem C144_trusted {x : Xauth} {d : Bytes} {timeout refuse : Nat} (hv : displayValid d = true) :
    (∀ p disp, x.there = true → x.path = some p → xdisplay d = some disp → getProto x (some d) true timeout refuse =
      ⟨some (((x.list (listCmd p none disp)).bind scan).getD (b!"MIT-MAGIC-COOKIE-1", hex x.rnd)), refuse, [listCmd p none disp]⟩) ∧
    (x.there = false ∨ x.path = none → getProto x (some d) true timeout refuse = ⟨some (b!"MIT-MAGIC-COOKIE-1", hex x.rnd), refuse, []⟩) := by
  refine ⟨fun p disp h1 h2 h3 => ?_, fun h => ?_⟩
  · simp only [getProto, hv, h1, h2, h3, withXauth, if_true, Bool.true_eq_false, if_false, finish]
    cases (x.list (listCmd p none disp)).bind scan <;> rfl
  · have : (if x.there then x.path else none) = none := by
      rcases h with h | h
      · rw [h]; rfl
      · rw [h]; simp
    simp only [getProto, hv, Bool.true_eq_false, if_false, this, finish]
    rfl

end Verif.Cookie
