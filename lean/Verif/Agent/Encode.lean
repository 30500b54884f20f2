/-
The agent's parsers read back what clients write.
-/
import Verif.Agent.Lemmas

namespace Verif.Agent
open Verif Wire Match

/-- A name on the wire: no NUL byte, and not empty when present. -/
def GoodName (o : Option Bytes) : Prop := ∀ s, o = some s → s ≠ [] ∧ (0 : UInt8) ∉ s

/-- A hop that can be written: names without NUL bytes, keys that can be read back. -/
structure GoodHop (w : World) (h : Hop) : Prop where
  user : GoodName h.user
  host : GoodName h.host
  keys : ∀ k ∈ h.keys, w.readPub (w.pubBlob k.1) = some k.1
  size : (encHop w h).length ≤ maxString

/-- A constraint that can be written: it names a host to go to; the start is either here or a named host. -/
structure GoodDest (w : World) (d : Dest) : Prop where
  frm : GoodHop w d.frm
  to : GoodHop w d.to
  origin : d.frm.host = none ↔ d.frm.keys = []
  user : d.frm.user = none
  host : d.to.host ≠ none
  keys : d.to.keys ≠ []
  size : (encDest w d).length ≤ maxString

theorem str_length (v : Bytes) : (str v).length = v.length + 4 := by
  unfold str
  simp
  omega

theorem parseHopKeys_enc {w : World} : ∀ (l : List (Key × Bool)) (f : Nat), l.length < f →
    (∀ k ∈ l, w.readPub (w.pubBlob k.1) = some k.1) → (∀ k ∈ l, (w.pubBlob k.1).length ≤ maxString) →
    parseHopKeys w f ((l.map fun k => str (w.pubBlob k.1) ++ [if k.2 then 1 else 0]).flatten) = some l
  | [], f + 1, _, _, _ => by simp [parseHopKeys]
  | (k, ca) :: l, f + 1, hf, hk, hs => by
    unfold parseHopKeys
    have hne : ¬ ((((k, ca) :: l).map fun k => str (w.pubBlob k.1) ++ [if k.2 then 1 else 0]).flatten = []) := by
      intro e
      have := congrArg List.length e
      simp [str_length] at this
    rw [if_neg hne]
    simp only [List.map_cons, List.flatten_cons, List.append_assoc]
    rw [readKey_str (hk _ List.mem_cons_self) (hs _ List.mem_cons_self)]
    simp only [Option.bind_eq_bind, Option.bind_some, List.cons_append, List.nil_append]
    rw [getInt_cons]
    simp only [Option.bind_some]
    rw [parseHopKeys_enc l f (by simp at hf; omega) (fun k hk' => hk k (List.mem_cons_of_mem _ hk'))
      (fun k hk' => hs k (List.mem_cons_of_mem _ hk'))]
    cases ca <;> rfl

theorem nonEmpty_getD {o : Option Bytes} (h : GoodName o) : nonEmpty (o.getD []) = o := by
  unfold nonEmpty
  cases o with
  | none => rfl
  | some s => simp [(h s rfl).1]

theorem goodName_nul {o : Option Bytes} (h : GoodName o) : (0 : UInt8) ∉ o.getD [] := by
  cases o with
  | none => simp
  | some s => exact (h s rfl).2

theorem mem_flatten_length {α β : Type} (f : α → List β) {a : α} {l : List α} (h : a ∈ l) : (f a).length ≤ (l.map f).flatten.length := by
  induction l with
  | nil => simp at h
  | cons b l ih =>
    simp only [List.map_cons, List.flatten_cons, List.length_append]
    rcases List.mem_cons.1 h with rfl | h
    · omega
    · have := ih h; omega

theorem length_le_flatten {α β : Type} (f : α → List β) (hf : ∀ a, 0 < (f a).length) (l : List α) : l.length ≤ (l.map f).flatten.length := by
  induction l with
  | nil => simp
  | cons b l ih =>
    simp only [List.map_cons, List.flatten_cons, List.length_append, List.length_cons]
    have := hf b
    omega

theorem parseHop_enc {w : World} {h : Hop} (hg : GoodHop w h) : parseHop w (encHop w h) = some h := by
  have hsz := hg.size
  unfold parseHop
  unfold encHop at hsz ⊢
  simp only [List.append_assoc, List.length_append, str_length] at hsz ⊢
  rw [getCstr_append _ _ (goodName_nul hg.user) (by omega)]
  simp only [Option.bind_eq_bind, Option.bind_some]
  rw [getCstr_append _ _ (goodName_nul hg.host) (by omega)]
  simp only [Option.bind_some]
  rw [getStr_append _ _ (by simp)]
  simp only [Option.bind_some, ne_eq, not_true_eq_false, if_false]
  rw [parseHopKeys_enc]
  · simp only [Option.bind_some, nonEmpty_getD hg.user, nonEmpty_getD hg.host]; rfl
  · have := length_le_flatten (fun k : Key × Bool => str (w.pubBlob k.1) ++ [if k.2 then (1 : UInt8) else 0]) (by intro a; simp) h.keys
    omega
  · exact hg.keys
  · intro k hk
    have := mem_flatten_length (fun k : Key × Bool => str (w.pubBlob k.1) ++ [if k.2 then (1 : UInt8) else 0]) hk
    simp only [List.length_append, str_length] at this
    omega

theorem parseDest_enc {w : World} {d : Dest} (hg : GoodDest w d) (r : Bytes) : parseDest w (encDest w d ++ r) = some (d, r) := by
  have hsz := hg.size
  unfold encDest at hsz ⊢
  unfold parseDest
  rw [str_length] at hsz
  rw [getStr_append _ _ (by omega)]
  simp only [Option.bind_eq_bind, Option.bind_some, List.append_assoc]
  rw [getStr_append _ _ hg.frm.size]
  simp only [Option.bind_some]
  rw [getStr_append _ _ hg.to.size]
  simp only [Option.bind_some]
  have : getStr (str []) = some ([], []) := by
    have := getStr_append [] [] (by simp)
    rwa [List.append_nil] at this
  rw [this]
  simp only [Option.bind_some, parseHop_enc hg.frm, parseHop_enc hg.to, ne_eq, not_true_eq_false, if_false]
  have hc : consistent ⟨d.frm, d.to⟩ = true := by
    unfold consistent
    simp only [decide_eq_true_eq]
    exact ⟨hg.origin, hg.user, hg.host, hg.keys⟩
  rw [if_pos hc]; rfl

theorem parseDests_enc {w : World} : ∀ (ds : List Dest) (n : Nat), ds.length ≤ n → (∀ d ∈ ds, GoodDest w d) →
    parseDests w n (encDests w ds) = some ds
  | [], n, _, _ => by unfold parseDests; simp [encDests]
  | d :: ds, 0, hn, _ => by simp at hn
  | d :: ds, n + 1, hn, hg => by
    have hne : ¬ (encDests w (d :: ds) = []) := by
      intro e
      have := congrArg List.length e
      simp [encDests, encDest, str_length] at this
    unfold parseDests
    rw [if_neg hne]
    have e : encDests w (d :: ds) = encDest w d ++ encDests w ds := by simp [encDests]
    rw [e, parseDest_enc (hg d List.mem_cons_self)]
    simp only
    rw [parseDests_enc ds n (by simpa using hn) (fun x hx => hg x (List.mem_cons_of_mem _ hx))]
    rfl

theorem parseUserauth_of_request {w : World} {data : Bytes} {key : Key} {sid user : Bytes} {host : Option Key}
    (h : Request w data key sid user host) (hl : data.length ≤ maxString) : parseUserauth w data key = some ⟨sid, user, host⟩ := by
  obtain ⟨u, service, method, alg, blob, tail, rfl, hs, hu, hsv, ⟨a, ha, haf⟩, hb, hm⟩ := h
  simp only [List.append_assoc, List.length_append, str_length] at hl
  unfold parseUserauth
  simp only [List.append_assoc]
  rw [getStr_append _ _ (by omega)]
  simp only [Option.bind_eq_bind, Option.bind_some, if_neg hs, List.cons_append, List.nil_append]
  rw [getInt_cons]
  simp only [Option.bind_some]
  rw [getCstr_of_named hu _ (by omega)]
  simp only [Option.bind_some]
  rw [getCstr_of_named hsv _ (by omega)]
  simp only [Option.bind_some]
  cases host with
  | none =>
    obtain ⟨hm, rfl⟩ := hm
    rw [getCstr_of_named hm _ (by omega)]
    simp only [Option.bind_some]
    rw [getInt_cons]
    simp only [Option.bind_some]
    rw [getCstr_of_named ha _ (by omega)]
    simp only [Option.bind_some]
    rw [readKey_str hb (by omega)]
    simp [haf, readMethod]
  | some k =>
    obtain ⟨hm, hb', rfl, hk⟩ := hm
    rw [str_length] at hl
    rw [getCstr_of_named hm _ (by omega)]
    simp only [Option.bind_some]
    rw [getInt_cons]
    simp only [Option.bind_some]
    rw [getCstr_of_named ha _ (by omega)]
    simp only [Option.bind_some]
    rw [readKey_str hb (by omega)]
    have hr : readKey w (str hb') = some (k, []) := by
      have := readKey_str hk (by omega) []
      rwa [List.append_nil] at this
    simp [haf, readMethod, hr]

end Verif.Agent
