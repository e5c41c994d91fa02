import Verif.Reach.ReturnProps

/-!
C136, continued: in every fair execution in which nothing fails a call of the server comes to its end.
-/

namespace Verif.Reach

open Verif.Await Verif.Client Verif.Server
open Verif.Http (Hs HsOp LinkOp LinkCfg)

variable {D H : Type} [DblFmt D]

/-- C136 (partial), a call ends: a call waits for the answer to a request that found a session; from then on the session stays open on both sides, the client lives, listens and answers, no connection
fails and what the client posts is admitted; everybody has their turn again and again. Then the call comes to its end, in whatever order the threads run and whatever else is sent, handled and posted. Missing:
answers whose connection fails are lost (`C93_unsent_counterexample`), and the call then ends with its session (`C136_closed_partial`). -/
theorem C136_live_partial (c : LinkCfg) (s0 : SSelf D) (cli : Cli D H) (f : Nat → Op D H) {T i n k o : Nat} {t : Nat × Request D} {sid : Bytes} {b : Client.Outcome D → SBody D} {x : SCall D}
    (hx : (states c (World.init s0 cli) f T).server.calls[i]? = some x) (hst : x.st = .check n b ∨ x.st = .wait n b) (ht : (states c (World.init s0 cli) f T).slots[n]? = some t)
    (hfound : (states c (World.init s0 cli) f T).link.hs.sends[t.1]? = some (.found o (.request t.2))) (hplain : InMemory.PlainReq t.2)
    (hturns : Turns f i n) (hstreams : Streams f t.1 k) (hheeds : Heeds c (World.init s0 cli) f) (hwr : Writes c (World.init s0 cli) f o T) (hposts : ∀ p, Posts f p)
    (hk : (states c (World.init s0 cli) f T).link.hs.streams[k]? = some o) (hrun : ∀ u, T ≤ u → (states c (World.init s0 cli) f u).link.hs.running = true)
    (hopen : ∀ u x, T ≤ u → (states c (World.init s0 cli) f u).link.hs.objs[o]? = some x → x.closed = false)
    (hend : c.client.endpointPath ≠ []) (hsid : sid ≠ []) (hl : Listens c (World.init s0 cli) f o T) (hh : Holds c (World.init s0 cli) f sid o T) (hcon : ∀ p, Connects f p) (hadm : Admitted c f sid)
    (hans : ∀ v j env n e q, T ≤ v → f v = .heed j env n e → heard (states c (World.init s0 cli) f v).link j = some (serRequest q) → SentAs t.2 q →
      ∃ r, (onRequest env (states c (World.init s0 cli) f v).cli q).1 = .answer r ∧ PlainAnswer (.resp r)) :
    ∃ U, ∀ u, U ≤ u → (states c (World.init s0 cli) f u).server.ub = false →
      ∃ (y : SCall D) (r : SOut D), (states c (World.init s0 cli) f u).server.calls[i]? = some y ∧ y.st = .over r := by
  obtain ⟨v, hv, m, a, a', hdid, hm, h2, h3, h4, h5, h7, h6⟩ := going_marked c s0 cli f hstreams.advance hfound
  rw [← (states_sides c s0 cli f v).hs] at h6
  have hkv : (states c (World.init s0 cli) f v).link.hs.streams[k]? = some o := by
    obtain ⟨more, hmore⟩ := hs_between c s0 cli f hv
    rw [hmore]; exact streams_run more _ hk
  obtain ⟨U, hvU, hU⟩ := past_streamed c s0 cli f hstreams h6 hkv (fun u hu => hrun u (by omega)) (fun u x hu hx => hopen u x (by omega) hx)
  obtain ⟨j, k', e, ok, q, g1, g2, g3, g4⟩ := hU U (Nat.le_refl _)
  have hq := sentSo_same h5 g2
  subst hq
  obtain ⟨w, env, n', e', hTw, a1, a2, a3⟩ := heard_at c s0 cli f hheeds hwr hl (by omega) (Nat.le_trans h7 g1) g3 g4
  obtain ⟨r, hr, hpr⟩ := hans w j env n' e' m.req hTw a1 a3 h4.1
  obtain ⟨-, -, hpost⟩ := heed_replied c (states c (World.init s0 cli) f w) (n := n') (e := e') a2 (h4.2 hplain) a3 hr
  -- the promise was filed before
  have hmw : m ∈ named Hs.init (states c (World.init s0 cli) f (w + 1)).link.srvDid := by
    obtain ⟨more1, hmore1⟩ := did_between c (World.init s0 cli) f (show v ≤ v + w by omega)
    obtain ⟨more2, hmore2⟩ := did_between c (World.init s0 cli) f (show w ≤ v + w by omega)
    obtain ⟨more3, hmore3⟩ := did_between c (World.init s0 cli) f (Nat.le_succ w)
    have hpa : a ++ [.advance t.1] <+: (states c (World.init s0 cli) f (v + w)).link.srvDid := ⟨a' ++ more1, by rw [← hmore1, hdid]; simp⟩
    have hpw : (states c (World.init s0 cli) f w).link.srvDid <+: (states c (World.init s0 cli) f (v + w)).link.srvDid := ⟨more2, hmore2⟩
    have hle : a ++ [.advance t.1] <+: (states c (World.init s0 cli) f w).link.srvDid := by
      rcases List.prefix_or_prefix_of_prefix hpa hpw with h | h
      · exact h
      · rcases List.prefix_concat_iff.1 h with h | h
        · rw [h]; exact List.prefix_rfl
        · exfalso
          obtain ⟨rest, hrest⟩ := h
          obtain ⟨k2, i2, ok2, b5⟩ := heard_get a3
          have b6 := (List.getElem?_eq_some_iff.1 b5).1
          have b7 := (events_grow_run (states c (World.init s0 cli) f w).link.hs rest).length_le
          rw [(states_sides c s0 cli f w).hs, ← hs_run_append, hrest, ← (states_sides c s0 cli f w).hs] at b7
          omega
    obtain ⟨rest, hrest⟩ := hle
    rw [← hmore3, ← hrest, named_append, named_append]
    exact List.mem_append_left _ (List.mem_append_left _ hm)
  -- the answer comes back
  have hpq : (states c (World.init s0 cli) f (w + 1)).link.ht.posts[(states c (World.init s0 cli) f w).link.ht.posts.length]? = some (.queued .answer (serResponse (replyFor m.req (.resp r)))) := by
    have : (states c (World.init s0 cli) f (w + 1)).link.ht.posts = (states c (World.init s0 cli) f w).link.ht.posts ++ [.queued .answer (serResponse (replyFor m.req (.resp r)))] := by
      simp only [states, a1]; exact hpost
    rw [this]
    exact List.getElem?_concat_length ..
  obtain ⟨L, hL⟩ := C136_returned_partial c s0 cli f hend hsid hmw h3 (h4.2 hplain) hpr hpq (hposts _) (hcon _) hadm (fun u hu => hh u (by omega))
  rw [h2] at hL
  exact C136_ended_partial c s0 cli f hturns hx hst ht hL

end Verif.Reach
