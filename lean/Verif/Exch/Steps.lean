/-
The invariant of `Record` holds in every state that can be reached: the handlers and the events.
-/
import Verif.Exch.Invariant

namespace Verif.Exch
open Verif Wire Text
open scoped Verif.Match
open _root_.Verif.Kex (Support Flags Conf KeySet Err chooseConf wellFormed deriveKeys prop2buf buf2prop)

theorem getMpint_some {l rest : Bytes} {n : Nat} (h : getMpint l = some (n, rest)) :
    ∃ d, l = str d ++ rest ∧ ofBE d = n ∧ d.length ≤ 2049 := by
  unfold getMpint at h
  split at h
  · cases h
  · rename_i d r hs
    split at h
    · cases h
    · split at h
      · cases h
      · rename_i hl
        simp only [Option.some.injEq, Prod.mk.injEq] at h
        obtain ⟨h1, h2⟩ := h
        subst h2
        exact ⟨d, (getStr_some hs).1, h1, Nat.le_of_not_gt fun h => hl (Or.inl h)⟩

theorem replyKey_some {E : Env} {c : Conf} {p k rest : Bytes} (h : replyKey E c p = some (k, rest)) :
    p = str k ++ rest ∧ E.keyType k = some c.hostkeyType ∧ E.trusted k = true := by
  unfold replyKey at h
  split at h
  · cases h
  · rename_i hs
    split at h
    · rename_i hc
      simp only [Option.some.injEq, Prod.mk.injEq] at h
      obtain ⟨h1, h2⟩ := h
      subst h1 h2
      exact ⟨(getStr_some hs).1, hc⟩
    · cases h

section
variable {E : Env} {vc vs : Bytes} {hist : List (Nat × Bytes)} {s s' : St}

theorem mem_left {α : Type} {l : List α} (y : α) : ∀ x ∈ l, x ∈ l ++ [y] := fun _ h => List.mem_append_left _ h

theorem mem_last {α : Type} {l : List α} (y : α) : y ∈ l ++ [y] := List.mem_append_right _ (List.mem_singleton_self y)

theorem genReply_inv {p : Bytes} (hH : ∀ k x, E.H k x ≠ []) (hi : Inv E vc vs hist s) (ht : s.table 31 = .genReply)
    (h : genReply E s p = .ok s') : Inv E vc vs (hist ++ [(31, p)]) s' := by
  cases hi.at_ with
  | genC c hr hb hta pub priv ρ he hk hs =>
    unfold genReply at h
    rw [hr.conf, he] at h
    simp only at h
    split at h
    · cases h
    · rename_i k rest hrep
      obtain ⟨r1, r2, r3⟩ := replyKey_some hrep
      split at h
      · cases h
      · rename_i qs rest2 hq
        split at h
        · rename_i sig hsig
          split at h
          · cases h
          · rename_i secret hdec
            refine finishClient_inv hH h hi.vcEq hi.vsEq hr.done (await_newkeys hta (by decide))
              (fun x hx => (hi.good x hx).mono (fun _ h => h) (mem_left _)) ⟨hi.ids.1, hi.ids.2, hi.ids.3⟩
              ⟨hi.keys.1, hi.keys.2, hi.keys.3⟩ rfl fun hv => ?_
            have hp : p = str k ++ str qs ++ str sig := by
              rw [r1, (getStr_some hq).1, (getStr_some hsig).1]; simp
            refine ⟨hi.vcEq, hi.vsEq, ?_, ?_, ?_, Or.inl ⟨hr.method, pub, qs, rfl, rfl, rfl, ?_, ?_, ?_⟩, ?_⟩
            · rw [hb]; have := hr.chosen; rw [hb] at this; exact this
            · rw [hb]; exact hr.own
            · rw [hb]; exact mem_left _ _ hr.peers
            · rw [hb]; exact hs
            · rw [hb]
              show (31, str k ++ str qs ++ str sig) ∈ hist ++ [(31, p)]
              rw [← hp]; exact mem_last _
            · rw [hb]; exact ⟨ρ, priv, hk, hdec⟩
            · rw [hb]; exact ⟨r2, r3, hv⟩
        · cases h
  | idle h1 _ _ => rcases h1 31 with h2 | ⟨h2, _⟩
                   · rw [ht] at h2; cases h2
                   · cases h2
  | genS c hr hb hta => have := hta.2 31 (by decide); rw [ht] at this; cases this
  | gexS0 c hr hb hta => have := hta.2 31 (by decide); rw [ht] at this; cases this
  | gexS1 c hr hb hta => have := hta.2 31 (by decide); rw [ht] at this; cases this
  | gexC0 c hr hb hta => have := hta.1; rw [ht] at this; cases this
  | gexC1 c hr hb hta => have := hta.2 31 (by decide); rw [ht] at this; cases this
  | fin hta => have := hta.2 31 (by decide); rw [ht] at this; cases this

theorem genInit_inv {p ρ σ : Bytes} (hH : ∀ k x, E.H k x ≠ []) (hi : Inv E vc vs hist s) (ht : s.table 30 = .genInit)
    (h : genInit E s p ρ σ = .ok s') : Inv E vc vs (hist ++ [(30, p)]) s' := by
  cases hi.at_ with
  | genS c hr hb hta =>
    unfold genInit at h
    rw [hr.conf] at h
    simp only at h
    split at h
    · cases h
    · rename_i k hk
      split at h
      · rename_i qc hq
        split at h
        · cases h
        · rename_i qs secret henc
          split at h
          · cases h
          · rename_i sig hsig
            refine finishServer_inv hH h hi.vcEq hi.vsEq hr.done (await_newkeys hta (by decide))
              (fun x hx => (hi.good x hx).mono (fun _ h => h) (mem_left _)) ⟨hi.ids.1, hi.ids.2, hi.ids.3⟩
              ⟨hi.keys.1, hi.keys.2, hi.keys.3⟩ rfl ?_
            have hp : p = str qc := by rw [(getStr_some hq).1]; simp
            refine ⟨hi.vcEq, hi.vsEq, ?_, ?_, ?_, Or.inl ⟨hr.method, qc, qs, rfl, rfl, rfl, ?_, ?_, ?_⟩, ?_⟩
            · rw [hb]; have := hr.chosen; rw [hb] at this; exact this
            · rw [hb]; exact mem_left _ _ hr.own
            · rw [hb]; exact mem_left _ _ hr.peers
            · rw [hb, hp]; exact mem_last _
            · rw [hb]; exact mem_last _
            · rw [hb]; exact ⟨ρ, henc⟩
            · rw [hb]; exact ⟨hk, σ, hsig⟩
      · cases h
  | idle h1 _ _ => rcases h1 30 with h2 | ⟨h2, _⟩
                   · rw [ht] at h2; cases h2
                   · cases h2
  | genC c hr hb hta => have := hta.2 30 (by decide); rw [ht] at this; cases this
  | gexS0 c hr hb hta => have := hta.2 30 (by decide); rw [ht] at this; cases this
  | gexS1 c hr hb hta => have := hta.2 30 (by decide); rw [ht] at this; cases this
  | gexC0 c hr hb hta => have := hta.2 30 (by decide); rw [ht] at this; cases this
  | gexC1 c hr hb hta => have := hta.2 30 (by decide); rw [ht] at this; cases this
  | fin hta => have := hta.2 30 (by decide); rw [ht] at this; cases this

theorem gexReply_inv {p : Bytes} (hH : ∀ k x, E.H k x ≠ []) (hi : Inv E vc vs hist s) (ht : s.table 33 = .gexReply)
    (h : gexReply E s p = .ok s') : Inv E vc vs (hist ++ [(33, p)]) s' := by
  cases hi.at_ with
  | gexC1 c hr hb hta hn hs d hd hpb hq hs' hk =>
    unfold gexReply at h
    rw [hr.conf, hd] at h
    simp only at h
    split at h
    · cases h
    · rename_i k rest hrep
      obtain ⟨r1, r2, r3⟩ := replyKey_some hrep
      split at h
      · cases h
      · rename_i f rest2 hf
        obtain ⟨fd, f1, f2, f3⟩ := getMpint_some hf
        split at h
        · rename_i sig hsig
          split at h
          · cases h
          · rename_i secret hdec
            obtain ⟨ρ, hk⟩ := hk
            refine finishClient_inv hH h hi.vcEq hi.vsEq hr.done (await_newkeys hta (by decide))
              (fun x hx => (hi.good x hx).mono (fun _ h => h) (mem_left _)) ⟨hi.ids.1, hi.ids.2, hi.ids.3⟩
              ⟨hi.keys.1, hi.keys.2, hi.keys.3⟩ rfl fun hv => ?_
            have hp : p = str k ++ str fd ++ str sig := by
              rw [r1, f1, (getStr_some hsig).1]; simp
            refine ⟨hi.vcEq, hi.vsEq, ?_, ?_, ?_,
              Or.inr ⟨hr.method, _, _, _, _, _, _, _, d.priv, rfl, rfl, rfl, ?_⟩, ?_⟩
            · rw [hb]; have := hr.chosen; rw [hb] at this; exact this
            · rw [hb]; exact hr.own
            · rw [hb]; exact mem_left _ _ hr.peers
            · rw [hb]
              obtain ⟨x, y, q1, q2, q3, q4⟩ := hq
              refine ⟨by rw [hn.1], hn.2.1, by rw [hn.2.2], hpb.1, hpb.2, hs,
                ⟨x, y, q1, q2, q3, mem_left _ _ q4⟩, hs', ⟨fd, f2, f3, ?_⟩, ⟨ρ, hk⟩, hdec⟩
              show (33, str k ++ str fd ++ str sig) ∈ hist ++ [(33, p)]
              rw [← hp]; exact mem_last _
            · rw [hb]; exact ⟨r2, r3, hv⟩
        · cases h
  | idle h1 _ _ => rcases h1 33 with h2 | ⟨h2, _⟩
                   · rw [ht] at h2; cases h2
                   · cases h2
  | genS c hr hb hta => have := hta.2 33 (by decide); rw [ht] at this; cases this
  | genC c hr hb hta => have := hta.2 33 (by decide); rw [ht] at this; cases this
  | gexS0 c hr hb hta => have := hta.2 33 (by decide); rw [ht] at this; cases this
  | gexS1 c hr hb hta => have := hta.2 33 (by decide); rw [ht] at this; cases this
  | gexC0 c hr hb hta => have := hta.2 33 (by decide); rw [ht] at this; cases this
  | fin hta => have := hta.2 33 (by decide); rw [ht] at this; cases this

theorem gexInit_inv {p σ : Bytes} (hH : ∀ k x, E.H k x ≠ []) (hi : Inv E vc vs hist s) (ht : s.table 32 = .gexInit)
    (h : gexInit E s p σ = .ok s') : Inv E vc vs (hist ++ [(32, p)]) s' := by
  cases hi.at_ with
  | gexS1 c hr hb hta d hd hn hq hs hg hk =>
    unfold gexInit at h
    rw [hr.conf, hd] at h
    simp only at h
    split at h
    · cases h
    · rename_i k hkey
      split at h
      · rename_i e he
        obtain ⟨ed, e1, e2, e3⟩ := getMpint_some he
        split at h
        · cases h
        · rename_i secret hsh
          split at h
          · cases h
          · rename_i sig hsig
            refine finishServer_inv hH h hi.vcEq hi.vsEq hr.done (await_newkeys hta (by decide))
              (fun x hx => (hi.good x hx).mono (fun _ h => h) (mem_left _)) ⟨hi.ids.1, hi.ids.2, hi.ids.3⟩
              ⟨hi.keys.1, hi.keys.2, hi.keys.3⟩ rfl ?_
            have hp : p = str ed := by rw [e1]; simp
            refine ⟨hi.vcEq, hi.vsEq, ?_, ?_, ?_,
              Or.inr ⟨hr.method, _, _, _, _, _, _, _, d.priv, rfl, rfl, rfl, ?_⟩, ?_⟩
            · rw [hb]; have := hr.chosen; rw [hb] at this; exact this
            · rw [hb]; exact mem_left _ _ hr.own
            · rw [hb]; exact mem_left _ _ hr.peers
            · rw [hb]
              refine ⟨hn.1, hn.2.1, hn.2.2.1, hn.2.2.2, mem_left _ _ hq, mem_left _ _ hs, ⟨ed, e2, e3, ?_⟩, mem_last _, hg, hk, hsh⟩
              rw [hp]; exact mem_last _
            · rw [hb]; exact ⟨hkey, σ, hsig⟩
      · cases h
  | idle h1 _ _ => rcases h1 32 with h2 | ⟨h2, _⟩
                   · rw [ht] at h2; cases h2
                   · cases h2
  | genS c hr hb hta => have := hta.2 32 (by decide); rw [ht] at this; cases this
  | genC c hr hb hta => have := hta.2 32 (by decide); rw [ht] at this; cases this
  | gexS0 c hr hb hta => have := hta.2 32 (by decide); rw [ht] at this; cases this
  | gexC0 c hr hb hta => have := hta.2 32 (by decide); rw [ht] at this; cases this
  | gexC1 c hr hb hta => have := hta.2 32 (by decide); rw [ht] at this; cases this
  | fin hta => have := hta.2 32 (by decide); rw [ht] at this; cases this

theorem gexGroup_inv {p ρ : Bytes} (hi : Inv E vc vs hist s) (ht : s.table 31 = .gexGroup)
    (h : gexGroup E s p ρ = .ok s') : Inv E vc vs (hist ++ [(31, p)]) s' := by
  cases hi.at_ with
  | gexC0 c hr hb hta hn hs =>
    unfold gexGroup at h
    rw [hr.conf] at h
    simp only at h
    split at h
    · cases h
    · rename_i P rest h1
      obtain ⟨x, x1, x2, x3⟩ := getMpint_some h1
      split at h
      · rename_i g h2
        obtain ⟨y, y1, y2, y3⟩ := getMpint_some h2
        split at h
        · cases h
        · rename_i hbits
          split at h
          · cases h
          · rename_i e priv hk
            injection h with h
            subst h
            refine ⟨hi.vcEq, hi.vsEq, ?_, fun r hr => (hi.good r hr).mono (mem_left _) (mem_left _),
              ⟨hi.ids.1, hi.ids.2, hi.ids.3⟩, ⟨hi.keys.1, hi.keys.2, hi.keys.3⟩⟩
            refine .gexC1 c ⟨hr.done, hr.conf, hr.chosen, hr.method, mem_left _ _ hr.own, mem_left _ _ hr.peers⟩ hb
              (await_next hta) hn (mem_left _ _ hs) _ rfl ?_ ⟨x, y, x2, y2, y3, ?_⟩ (mem_last _) ⟨ρ, hk⟩
            · rw [hn.1, hn.2.2] at hbits
              show 2048 ≤ numBits P ∧ numBits P ≤ 8192
              omega
            · rw [x1, y1, List.append_nil]; exact mem_last _
      · cases h
  | idle h1 _ _ => rcases h1 31 with h2 | ⟨h2, _⟩
                   · rw [ht] at h2; cases h2
                   · cases h2
  | genS c hr hb hta => have := hta.2 31 (by decide); rw [ht] at this; cases this
  | genC c hr hb hta => have := hta.1; rw [ht] at this; cases this
  | gexS0 c hr hb hta => have := hta.2 31 (by decide); rw [ht] at this; cases this
  | gexS1 c hr hb hta => have := hta.2 31 (by decide); rw [ht] at this; cases this
  | gexC1 c hr hb hta => have := hta.2 31 (by decide); rw [ht] at this; cases this
  | fin hta => have := hta.2 31 (by decide); rw [ht] at this; cases this

theorem be4_of (a b c d : UInt8) : be 4 (ofBE [a, b, c, d]) = [a, b, c, d] := be_ofBE [a, b, c, d]

theorem gexRequest_inv {p ρ σ : Bytes} (hi : Inv E vc vs hist s) (ht : s.table 34 = .gexRequest)
    (h : gexRequest E s p ρ σ = .ok s') : Inv E vc vs (hist ++ [(34, p)]) s' := by
  cases hi.at_ with
  | gexS0 c hr hb hta =>
    unfold gexRequest at h
    rw [hr.conf] at h
    split at h
    · rename_i c0 i1 i2 i3 i4 i5 i6 i7 i8 i9 i10 i11 i12 hc0
      injection hc0 with hc0
      subst hc0
      split at h
      · cases h
      · rename_i hord
        split at h
        · cases h
        · rename_i P g hg
          split at h
          · cases h
          · rename_i y priv hk
            injection h with h
            subst h
            refine ⟨hi.vcEq, hi.vsEq, ?_, fun r hr => (hi.good r hr).mono (mem_left _) (mem_left _),
              ⟨hi.ids.1, hi.ids.2, hi.ids.3⟩, ⟨hi.keys.1, hi.keys.2, hi.keys.3⟩⟩
            refine .gexS1 c ⟨hr.done, hr.conf, hr.chosen, hr.method, mem_left _ _ hr.own, mem_left _ _ hr.peers⟩ hb
              (await_next hta) _ rfl ?_ ?_ (mem_last _) ⟨ρ, hg⟩ ⟨σ, hk⟩
            · have hlt : ofBE [i9, i10, i11, i12] < 4294967296 := by
                have := ofBE_lt [i9, i10, i11, i12]
                simpa using this
              refine ⟨?_, ?_, ?_, hlt⟩
              · show ofBE _ ≤ ofBE _; omega
              · show ofBE _ ≤ ofBE _; omega
              · show 2048 ≤ ofBE _; omega
            · show (34, request (ofBE [i1, i2, i3, i4]) (ofBE [i5, i6, i7, i8]) (ofBE [i9, i10, i11, i12])) ∈ _
              unfold request
              rw [be4_of, be4_of, be4_of]
              exact mem_last _
    · cases h
  | idle h1 _ _ => rcases h1 34 with h2 | ⟨h2, _⟩
                   · rw [ht] at h2; cases h2
                   · cases h2
  | genS c hr hb hta => have := hta.2 34 (by decide); rw [ht] at this; cases this
  | genC c hr hb hta => have := hta.2 34 (by decide); rw [ht] at this; cases this
  | gexS1 c hr hb hta => have := hta.2 34 (by decide); rw [ht] at this; cases this
  | gexC0 c hr hb hta => have := hta.2 34 (by decide); rw [ht] at this; cases this
  | gexC1 c hr hb hta => have := hta.2 34 (by decide); rw [ht] at this; cases this
  | fin hta => have := hta.2 34 (by decide); rw [ht] at this; cases this

theorem newkeys_inv {p : Bytes} (hi : Inv E vc vs hist s) (ht : s.table 21 = .newkeys)
    (h : inputNewkeys E s p = .ok s') : Inv E vc vs (hist ++ [(21, p)]) s' := by
  cases hi.at_ with
  | fin hta hd r hl hpi hco =>
    unfold inputNewkeys at h
    split at h
    · cases h
    · split at h
      · rename_i k my hk hmy
        injection h with h
        subst h
        rw [hpi] at hk
        injection hk with hk
        subst hk
        have hmem : r ∈ s.recs := List.mem_of_getLast? hl
        refine ⟨hi.vcEq, hi.vsEq, ?_, fun r hr => (hi.good r hr).mono (fun _ h => h) (mem_left _),
          ⟨hi.ids.1, hi.ids.2, hi.ids.3⟩, ⟨?_, hi.keys.2, fun _ => ⟨r, hl, rfl, hco⟩⟩⟩
        · refine .idle (fun t => ?_) rfl (fun h => by cases h)
          show plain (setH 20 .kexinit (setH 21 .kexError _) t) = true ∨ (t = 20 ∧ setH 20 .kexinit (setH 21 .kexError _) t = .kexinit)
          unfold setH
          by_cases h20 : t = 20
          · rw [if_pos h20]; exact Or.inr ⟨h20, rfl⟩
          · rw [if_neg h20]
            left
            by_cases h21 : t = 21
            · rw [if_pos h21]; rfl
            · rw [if_neg h21]
              split
              · show plain (if t = 7 then .extInfo else s.table t) = true
                split
                · rfl
                · exact hta.2 t h21
              · exact hta.2 t h21
        · intro k hk
          injection hk with hk
          exact ⟨r, hmem, hk⟩
      · cases h
  | idle h1 _ _ => rcases h1 21 with h2 | ⟨h2, _⟩
                   · rw [ht] at h2; cases h2
                   · cases h2
  | genS c hr hb hta => have := hta.2 21 (by decide); rw [ht] at this; cases this
  | genC c hr hb hta => have := hta.2 21 (by decide); rw [ht] at this; cases this
  | gexS0 c hr hb hta => have := hta.2 21 (by decide); rw [ht] at this; cases this
  | gexS1 c hr hb hta => have := hta.2 21 (by decide); rw [ht] at this; cases this
  | gexC0 c hr hb hta => have := hta.2 21 (by decide); rw [ht] at this; cases this
  | gexC1 c hr hb hta => have := hta.2 21 (by decide); rw [ht] at this; cases this

/-- What sending KEXINIT changes. -/
theorem sendKexinit_fields {ρ : Bytes} (h : sendKexinit s ρ = .ok s') (hs : s.initSent = true → (20, s.my) ∈ s.sent ∧ s.done = false) :
    s'.done = false ∧ (20, s'.my) ∈ s'.sent ∧ s'.initSent = true ∧ (∀ x ∈ s.sent, x ∈ s'.sent) ∧ s'.table = s.table ∧ s'.peer = s.peer ∧
    s'.vc = s.vc ∧ s'.vs = s.vs ∧ s'.recs = s.recs ∧ s'.sid = s.sid ∧ s'.firstKey = s.firstKey ∧
    s'.curIn = s.curIn ∧ s'.curOut = s.curOut := by
  unfold sendKexinit at h
  split at h
  · rename_i hi
    injection h with h; subst h
    exact ⟨(hs hi).2, (hs hi).1, hi, fun _ h => h, rfl, rfl, rfl, rfl, rfl, rfl, rfl, rfl, rfl⟩
  · split at h
    · cases h
    · injection h with h; subst h
      exact ⟨rfl, mem_last _, rfl, mem_left _, rfl, rfl, rfl, rfl, rfl, rfl, rfl, rfl, rfl⟩

theorem kexinit_inv {p ρ σ : Bytes} {seq : Nat} (hi : Inv E vc vs hist s) (ht : s.table 20 = .kexinit)
    (h : inputKexinit E s seq p ρ σ = .ok s') : Inv E vc vs (hist ++ [(20, p)]) s' := by
  cases hi.at_ with
  | idle hta hpe hsent =>
    unfold inputKexinit at h
    split at h
    · split at h
      · cases h
      · rename_i s1 h1
        obtain ⟨b1, b2, b3, b4, b5, b6, b7, b8, b9, b10, b11, b12, b13⟩ := sendKexinit_fields h1 hsent
        split at h
        · cases h
        · rename_i c hc
          have hpeer : s1.peer = p := by rw [b6]; show s.peer ++ p = p; rw [hpe]; rfl
          have hgood : ∀ r ∈ s1.recs, Good E vc vs s1.sent (hist ++ [(20, p)]) r := by
            rw [b9]; exact fun r hr => (hi.good r hr).mono b4 (mem_left _)
          have hids : Ids s1 := by
            refine ⟨?_, ?_, ?_⟩
            · rw [b9, b10, b11]; exact hi.ids.1
            · rw [b9, b10, b11]; exact hi.ids.2
            · rw [b9, b10]; exact hi.ids.3
          have hkeys : Keys s1 := by
            refine ⟨?_, ?_, fun hd => ?_⟩
            · rw [b9, b12]; exact hi.keys.1
            · rw [b9, b13]; exact hi.keys.2
            · rw [b1] at hd; cases hd
          have hplain : ∀ t, plain (s1.table t) = true := by
            intro t
            rw [b5]
            show plain (if t = 20 then .kexError else s.table t) = true
            split
            · rfl
            · rename_i h20
              rcases hta t with h2 | ⟨h2, _⟩
              · exact h2
              · exact absurd h2 h20
          have hset : ∀ X k, Await (setH X k s1.table) X k := by
            intro X k
            constructor
            · unfold setH; rw [if_pos rfl]
            · intro t ht; unfold setH; rw [if_neg ht]; exact hplain t
          have hpeers : (20, s1.peer) ∈ hist ++ [(20, p)] := by rw [hpeer]; exact mem_last _
          unfold startMethod at h
          split at h
          · cases h
          · rename_i hm
            split at h
            · rename_i hb
              injection h with h; subst h
              exact ⟨b7.trans hi.vcEq, b8.trans hi.vsEq,
                .genS c ⟨b1, rfl, ⟨_, _, hc⟩, hm, b2, hpeers⟩ hb (hset _ _), hgood, ⟨hids.1, hids.2, hids.3⟩,
                ⟨hkeys.1, hkeys.2, hkeys.3⟩⟩
            · rename_i hb
              unfold genClient at h
              split at h
              · cases h
              · rename_i pub priv hk
                injection h with h; subst h
                exact ⟨b7.trans hi.vcEq, b8.trans hi.vsEq,
                  .genC c ⟨b1, rfl, ⟨_, _, hc⟩, hm, mem_left _ _ b2, hpeers⟩ (Bool.eq_false_iff.2 hb) (hset _ _)
                    pub priv _ rfl hk (mem_last _),
                  fun r hr => (hgood r hr).mono (mem_left _) fun _ h => h, ⟨hids.1, hids.2, hids.3⟩,
                  ⟨hkeys.1, hkeys.2, hkeys.3⟩⟩
          · rename_i hm
            split at h
            · rename_i hb
              injection h with h; subst h
              exact ⟨b7.trans hi.vcEq, b8.trans hi.vsEq,
                .gexS0 c ⟨b1, rfl, ⟨_, _, hc⟩, hm, b2, hpeers⟩ hb (hset _ _), hgood, ⟨hids.1, hids.2, hids.3⟩,
                ⟨hkeys.1, hkeys.2, hkeys.3⟩⟩
            · rename_i hb
              unfold gexClient at h
              injection h with h; subst h
              exact ⟨b7.trans hi.vcEq, b8.trans hi.vsEq,
                .gexC0 c ⟨b1, rfl, ⟨_, _, hc⟩, hm, mem_left _ _ b2, hpeers⟩ (Bool.eq_false_iff.2 hb) (hset _ _)
                  ⟨rfl, rfl, rfl⟩ (mem_last _),
                fun r hr => (hgood r hr).mono (mem_left _) fun _ h => h, ⟨hids.1, hids.2, hids.3⟩,
                ⟨hkeys.1, hkeys.2, hkeys.3⟩⟩
    · cases h
  | genS c hr hb hta => have := hta.2 20 (by decide); rw [ht] at this; cases this
  | genC c hr hb hta => have := hta.2 20 (by decide); rw [ht] at this; cases this
  | gexS0 c hr hb hta => have := hta.2 20 (by decide); rw [ht] at this; cases this
  | gexS1 c hr hb hta => have := hta.2 20 (by decide); rw [ht] at this; cases this
  | gexC0 c hr hb hta => have := hta.2 20 (by decide); rw [ht] at this; cases this
  | gexC1 c hr hb hta => have := hta.2 20 (by decide); rw [ht] at this; cases this
  | fin hta => have := hta.2 20 (by decide); rw [ht] at this; cases this

/-- Handlers of the exchange are installed for their own message only. -/
def own : Handler → Nat
  | .kexinit => 20
  | .newkeys => 21
  | .genReply | .gexGroup => 31
  | .genInit => 30
  | .gexReply => 33
  | .gexRequest => 34
  | .gexInit => 32
  | _ => 0

theorem Where.own (hw : Where E hist s) (t : Nat) (hp : ¬ plain (s.table t) = true) : t = Exch.own (s.table t) := by
  have aw : ∀ {X : Nat} {h : Handler}, Await s.table X h → Exch.own h = X → t = Exch.own (s.table t) := by
    intro X h ha ho
    by_cases ht : t = X
    · rw [ht, ha.1, ho]
    · exact absurd (ha.2 t ht) hp
  cases hw with
  | idle h1 _ _ => rcases h1 t with h2 | ⟨h2, h3⟩
                   · exact absurd h2 hp
                   · rw [h3, h2]; rfl
  | genS c hr hb hta => exact aw hta rfl
  | genC c hr hb hta => exact aw hta rfl
  | gexS0 c hr hb hta => exact aw hta rfl
  | gexS1 c hr hb hta => exact aw hta rfl
  | gexC0 c hr hb hta => exact aw hta rfl
  | gexC1 c hr hb hta => exact aw hta rfl
  | fin hta => exact aw hta rfl

theorem handle_inv {p ρ σ τ : Bytes} {seq t : Nat} (hH : ∀ k x, E.H k x ≠ []) (hi : Inv E vc vs hist s)
    (h : handle E s seq t p ρ σ τ = .ok s') : Inv E vc vs (hist ++ [(t, p)]) s' := by
  by_cases hp : plain (s.table t) = true
  · exact hi.frame (handle_plain hp h) (mem_left _)
  · have ho := hi.at_.own t hp
    unfold handle at h
    split at h <;> rename_i ht <;> rw [ht] at hp ho
    · exact absurd rfl hp
    · exact absurd rfl hp
    · exact absurd rfl hp
    · subst ho; exact kexinit_inv hi ht h
    · subst ho; exact newkeys_inv hi ht h
    · exact absurd rfl hp
    · subst ho; exact genReply_inv hH hi ht h
    · subst ho; exact genInit_inv hH hi ht h
    · subst ho; exact gexGroup_inv hi ht h
    · subst ho; exact gexReply_inv hH hi ht h
    · subst ho; exact gexRequest_inv hi ht h
    · subst ho; exact gexInit_inv hH hi ht h
    · exact absurd rfl hp

theorem dispatch_inv {p ρ σ τ : Bytes} {seq t : Nat} (hH : ∀ k x, E.H k x ≠ []) (hi : Inv E vc vs hist s)
    (h : dispatch E s seq t p ρ σ τ = .ok s') : Inv E vc vs (hist ++ [(t, p)]) s' := by
  obtain ⟨_, _, ⟨_, h⟩ | ⟨_, h⟩⟩ := dispatch_cases h
  · subst h; exact hi.frame (Frame.of_skip s _) (mem_left _)
  · exact handle_inv hH hi h

theorem packet_inv {p ρ σ τ : Bytes} {t : Nat} (hH : ∀ k x, E.H k x ≠ []) (hi : Inv E vc vs hist s)
    (h : packet E s t p ρ σ τ = .ok s') : Inv E vc vs (hist ++ [(t, p)]) s' := by
  have hi' : Inv E vc vs hist { s with seq := nextSeq s t } := hi.frame (Frame.of_seq s _) fun _ h => h
  unfold packet at h
  split at h
  · cases h
  · split at h
    · cases h
    · split at h
      · exact dispatch_inv hH hi' h
      · split at h
        · rename_i r hr
          subst h
          exact hi'.frame (implicitly_frame hr) (mem_left _)
        · exact dispatch_inv hH hi' h

theorem Where.done (hw : Where E hist s) (hd : s.done = true) :
    (∀ t, plain (s.table t) = true ∨ (t = 20 ∧ s.table t = .kexinit)) ∧ s.peer = [] ∧ s.initSent = false := by
  cases hw with
  | idle h1 h2 h3 =>
    refine ⟨h1, h2, ?_⟩
    cases hi : s.initSent with
    | false => rfl
    | true => have := (h3 hi).2; rw [hd] at this; cases this
  | genS c hr hb hta => have := hr.done; rw [hd] at this; cases this
  | genC c hr hb hta => have := hr.done; rw [hd] at this; cases this
  | gexS0 c hr hb hta => have := hr.done; rw [hd] at this; cases this
  | gexS1 c hr hb hta => have := hr.done; rw [hd] at this; cases this
  | gexC0 c hr hb hta => have := hr.done; rw [hd] at this; cases this
  | gexC1 c hr hb hta => have := hr.done; rw [hd] at this; cases this
  | fin hta hd' => rw [hd] at hd'; cases hd'

theorem appTable_plain (k e : Bool) (f : Nat → Bool) (t : Nat) :
    plain (appTable k e f t) = true ∨ (t = 20 ∧ appTable k e f t = .kexinit) := by
  unfold appTable
  by_cases h20 : t = 20
  · rw [if_pos h20]
    cases k with
    | true => exact Or.inr ⟨h20, rfl⟩
    | false => exact Or.inl rfl
  · rw [if_neg h20]
    left
    repeat' split
    all_goals rfl

theorem step_inv {e : Ev} (hH : ∀ k x, E.H k x ≠ []) (hi : Inv E vc vs hist s) (h : step E s e = .ok s') :
    Inv E vc vs (hist ++ received [e]) s' := by
  cases e with
  | packet t p ρ σ τ => exact packet_inv hH hi h
  | rekey ρ =>
    show Inv E vc vs (hist ++ []) s'
    rw [List.append_nil]
    rw [step] at h
    split at h
    · rename_i hg
      obtain ⟨w1, w2, w3⟩ := hi.at_.done hg.2.1
      obtain ⟨b1, b2, b3, b4, b5, b6, b7, b8, b9, b10, b11, b12, b13⟩ :=
        sendKexinit_fields h (fun hs => by rw [show s.initSent = true from hs] at w3; cases w3)
      refine ⟨b7.trans hi.vcEq, b8.trans hi.vsEq, ?_, ?_, ⟨?_, ?_, ?_⟩, ⟨?_, ?_, ?_⟩⟩
      · refine .idle (fun t => ?_) (b6.trans w2) fun _ => ⟨b2, b1⟩
        rw [b5]; exact w1 t
      · rw [b9]; exact fun r hr => (hi.good r hr).mono b4 fun _ h => h
      · rw [b9, b10, b11]; exact hi.ids.1
      · rw [b9, b10, b11]; exact hi.ids.2
      · rw [b9, b10]; exact hi.ids.3
      · rw [b9, b12]; exact hi.keys.1
      · rw [b9, b13]; exact hi.keys.2
      · intro hd; rw [b1] at hd; cases hd
    · injection h with h; subst h; exact hi
  | table k e f =>
    show Inv E vc vs (hist ++ []) s'
    rw [List.append_nil]
    rw [step] at h
    split at h
    · rename_i hg
      obtain ⟨w1, w2, w3⟩ := hi.at_.done hg.1
      injection h with h; subst h
      exact ⟨hi.vcEq, hi.vsEq,
        .idle (appTable_plain k e f) w2 (fun hs => by rw [show s.initSent = true from hs] at w3; cases w3),
        hi.good, ⟨hi.ids.1, hi.ids.2, hi.ids.3⟩, ⟨hi.keys.1, hi.keys.2, hi.keys.3⟩⟩
    · injection h with h; subst h; exact hi
  | authed =>
    show Inv E vc vs (hist ++ []) s'
    rw [List.append_nil]
    injection h with h; subst h
    exact hi.frame (by constructor <;> simp) fun _ h => h

theorem run_inv {es : List Ev} (hH : ∀ k x, E.H k x ≠ []) (hi : Inv E vc vs hist s) (h : run E s es = .ok s') :
    Inv E vc vs (hist ++ received es) s' := by
  induction es generalizing s hist with
  | nil =>
    injection h with h; subst h
    show Inv E vc vs (hist ++ []) s
    rw [List.append_nil]; exact hi
  | cons e es ih =>
    rw [run] at h
    split at h
    · cases h
    · rename_i s1 h1
      rw [received_cons, ← List.append_assoc]
      exact ih (step_inv hH hi h1) h

theorem setup_inv {prop : Kex.Proposal} {ρ : Bytes} (h : setup vc vs prop ρ = .ok s) : Inv E vc vs [] s := by
  obtain ⟨b1, b2, b3, b4, b5, b6, b7, b8, b9, b10, b11, b12, b13⟩ :=
    sendKexinit_fields (s := ready vc vs prop) h fun hs => by cases hs
  refine ⟨b7, b8, .idle (fun t => ?_) b6 fun _ => ⟨b2, b1⟩, ?_, ⟨?_, ?_, ?_⟩, ⟨?_, ?_, ?_⟩⟩
  · rw [b5]
    show plain (setH 20 .kexinit (resetH fun _ => .none) t) = true ∨ (t = 20 ∧ setH 20 .kexinit (resetH fun _ => .none) t = .kexinit)
    unfold setH resetH
    by_cases h20 : t = 20
    · rw [if_pos h20]; exact Or.inr ⟨h20, rfl⟩
    · rw [if_neg h20]; left; split <;> rfl
  · rw [b9]; intro r hr; cases hr
  · rw [b10, b11]; intro _; exact ⟨rfl, rfl⟩
  · rw [b9]; intro r l hr; cases hr
  · rw [b9]; intro r hr; cases hr
  · rw [b12]; intro k hk; cases hk
  · rw [b13]; intro k hk; cases hk
  · intro hd; rw [b1] at hd; cases hd

end

end Verif.Exch
