import Verif.Reach.Lemmas

/-! Helper lemmas for C136: which promise belongs to which call, and where the answers of the client come from. -/

namespace Verif.Reach

open Verif.Await Verif.Client Verif.Server
open Verif.Http (Hs HsOp LinkOp LinkCfg HtHandlers clientReplies Sess)
open Verif.InMemory (PlainReq PlainNote)
open Verif.Whole (snoc_induction lt_of_get)
open Verif.Ask (asRequest asking paths_step cells_step cells_other go_quiet go_asks)
open Verif.Web (seen)
open Verif.Duplex (get_prefix)

variable {D H : Type} [DblFmt D]

/-- The error for want of a session. -/
def noSession (r : Request D) : Http.SOut D := .resp ⟨r.id, none, some (mkErrorObj Code.internalError (lit "No active HTTP session") none)⟩

/-- A send of this number, given this request, has come to this outcome. -/
def Settled (l : Http.Link D) (t : Nat × Request D) (so : Http.SOut D) : Prop :=
  so = noSession t.2 ∨ ∃ m ∈ named Hs.init l.srvDid, m.ticket = t.1 ∧ ∃ x, l.hs.objs[m.obj]? = some x ∧ (m.fut, so) ∈ x.pend.outcomes

theorem settled_future {l : Http.Link D} {t : Nat × Request D} {so : Http.SOut D} (h : future l t = some so) : Settled l t so := by
  unfold future at h
  split at h
  · cases h; exact .inl rfl
  · split at h
    · rename_i m hm
      split at h
      · rename_i x hx
        exact .inr ⟨m, List.mem_of_find?_eq_some hm, by simpa using List.find?_some hm, x, hx, AMap.get_some_mem h⟩
      · cases h
    · cases h

theorem Settled.grow {c : LinkCfg} {l l' : Http.Link D} (hs : Sides c l) (hs' : Sides c l') (hg : l.srvDid <+: l'.srvDid) {t : Nat × Request D} {so : Http.SOut D}
    (h : Settled l t so) : Settled l' t so := by
  rcases h with h | ⟨m, h1, h2, x, h3, h4⟩
  · exact .inl h
  · obtain ⟨more, hm⟩ := hg
    rw [hs.hs] at h3
    obtain ⟨y, h5, h6, -⟩ := obj_run more _ _ x h3
    refine .inr ⟨m, ?_, h2, y, ?_, h6 _ h4⟩
    · rw [← hm, named_append]; exact List.mem_append_left _ h1
    · rw [hs'.hs, ← hm, hs_run_append]; exact h5

/-- The sends of the calls. -/
structure Slots (w : World D H) : Prop where
  len : w.slots.length = w.server.cells.length
  sent : ∀ (i : Nat) (x : SCall D) (n : Nat) (q : SReq D), w.server.calls[i]? = some x → Ev.sent n q ∈ x.path →
    ∃ t, w.slots[n]? = some (t, asRequest q)
  cell : ∀ (n : Nat) (o : Client.Outcome D), w.server.cells[n]? = some (some o) →
    ∃ t so, w.slots[n]? = some t ∧ Settled w.link t so ∧ o = seen so
  given : ∀ t ∈ w.slots, (takes w.link.srvDid)[t.1]? = some (.request t.2)
  tickets : (w.slots.map (·.1)).Nodup

theorem takes_grow {a b : List (HsOp D)} (h : a <+: b) : takes a <+: takes b := by
  obtain ⟨t, rfl⟩ := h
  rw [takes_append]
  exact List.prefix_append _ _

theorem Slots.keep {c : LinkCfg} {w w' : World D H} (h : Slots w) (hs : Sides c w.link) (hs' : Sides c w'.link) (hf : w'.slots = w.slots)
    (hl : w'.server.cells.length = w.server.cells.length) (hg : w.link.srvDid <+: w'.link.srvDid)
    (hp : ∀ (j : Nat) (y : SCall D), w'.server.calls[j]? = some y → ∀ (n : Nat) (q : SReq D), Ev.sent n q ∈ y.path →
      ∃ z : SCall D, w.server.calls[j]? = some z ∧ Ev.sent n q ∈ z.path)
    (hc : ∀ (n : Nat) (o : Client.Outcome D), w'.server.cells[n]? = some (some o) → w.server.cells[n]? = some (some o) ∨
      ∃ t so, w.slots[n]? = some t ∧ Settled w.link t so ∧ o = seen so) : Slots w' := by
  refine ⟨by rw [hf, hl]; exact h.len, fun i x n q hx hq => ?_, fun n o hn => ?_, fun t ht => ?_, by rw [hf]; exact h.tickets⟩
  · obtain ⟨z, h1, h2⟩ := hp i x hx n q hq
    obtain ⟨t, h3⟩ := h.sent i z n q h1 h2
    exact ⟨t, by rw [hf]; exact h3⟩
  · rcases hc n o hn with h1 | ⟨t, so, h1, h2, h3⟩
    · obtain ⟨t, so, h1, h2, h3⟩ := h.cell n o h1
      exact ⟨t, so, by rw [hf]; exact h1, h2.grow hs hs' hg, h3⟩
    · exact ⟨t, so, by rw [hf]; exact h1, h2.grow hs hs' hg, h3⟩
  · rw [hf] at ht
    exact get_prefix (takes_grow hg) (h.given t ht)

theorem slots_step (c : LinkCfg) {w : World D H} (hs : Sides c w.link) (h : Slots w) (op : Op D H) (hs' : Sides c (w.step c op).link) : Slots (w.step c op) := by
  have hgr := (move_grows (link_step c w op)).1
  have same : ∀ w' : World D H, w'.slots = w.slots → w'.server = w.server → Sides c w'.link → w.link.srvDid <+: w'.link.srvDid → Slots w' := by
    intro w' h1 h2 h3 h4
    exact h.keep hs h3 h1 (by rw [h2]) h4 (fun j y hy n q hq => ⟨y, by rw [← h2]; exact hy, hq⟩) (fun n o hn => .inl (by rw [← h2]; exact hn))
  have hserver : ∀ (w' : World D H) (cop : SOp D), (∀ i, cop ≠ .go i) → (∀ n o, cop ≠ .fill n o) → w'.slots = w.slots → w'.server = w.server.step cop →
      w'.link = w.link → Slots w' := by
    intro w' cop h0 h0' h1 h2 h3
    refine h.keep hs (by rw [h3]; exact hs) h1 (by rw [h2]; exact cells_step _ _ h0) (by rw [h3]; exact List.prefix_refl _) (fun j y hy n q hq => ?_) (fun n o hn => ?_)
    · rw [h2] at hy; exact paths_step _ _ h0 j y hy n q hq
    · rw [h2] at hn
      rcases cells_other _ _ h0 n o hn with h4 | h4
      · exact .inl h4
      · exact absurd h4 (h0' n o)
  cases op with
  | call api => exact hserver _ (.call (sbody api)) (fun i => nofun) (fun n o => nofun) rfl rfl rfl
  | drop i => exact hserver _ (.drop i) (fun i => nofun) (fun n o => nofun) rfl rfl rfl
  | change u => exact hserver _ (.change u) (fun i => nofun) (fun n o => nofun) rfl rfl rfl
  | wire op =>
    refine same _ ?_ ?_ hs' hgr
    · simp only [World.step]; split <;> rfl
    · simp only [World.step]; split <;> rfl
  | heed j env n e =>
    refine same _ ?_ ?_ hs' hgr
    · simp only [World.step]; split; rfl; exact (heed_server c w j env n e).2
    · simp only [World.step]; split; rfl; exact (heed_server c w j env n e).1
  | own op =>
    refine same _ ?_ ?_ hs' hgr
    · cases op <;> simp only [World.step] <;> (try split) <;> rfl
    · cases op <;> simp only [World.step] <;> (try split) <;> rfl
  | deliver k =>
    simp only [World.step, World.deliver]
    split
    · rename_i t ht
      split
      · rename_i so hso
        have hnf : ∀ i, (Await.Op.fill k (seen so) : SOp D) ≠ .go i := fun _ h => nomatch h
        refine h.keep hs hs rfl (cells_step _ _ hnf) (List.prefix_refl _) (fun j y hy n q hq => paths_step _ _ hnf j y hy n q hq) (fun n o hn => ?_)
        rcases cells_other _ _ hnf n o hn with h4 | h4
        · exact .inl h4
        · cases h4; exact .inr ⟨t, so, ht, settled_future hso, rfl⟩
      · exact h
    · exact h
  | go i =>
    revert hgr hs'
    simp only [World.step, World.go]
    have quiet : (asking w.server i = none ∨ ¬ (w.server.ub = false ∧ w.server.alive = true)) →
        Slots ({ w with server := w.server.step (.go i) } : World D H) := by
      intro hq
      obtain ⟨h1, h2⟩ := go_quiet w.server i hq
      exact h.keep hs hs rfl (by rw [h1]) (List.prefix_refl _) h2 (fun n o hn => .inl (by rw [← h1]; exact hn))
    split
    · rename_i q hq
      split
      · rename_i hsafe
        intro hs' hgr
        obtain ⟨h1, h2⟩ := go_asks w.server i q hq hsafe
        have hlen : w.link.hs.sends.length = (takes w.link.srvDid).length := by
          have := (run_calls w.link.srvDid (Hs.init : Hs D) [] calls_init).2.2.2.len
          rw [hs.hs]
          simpa using this
        refine ⟨?_, fun j y n q' hy hq' => ?_, fun n o hn => ?_, fun t ht => ?_, ?_⟩
        · simp only [List.length_append, h1, h.len]; rfl
        · rcases h2 j y hy n q' hq' with ⟨rfl, rfl⟩ | ⟨z, h3, h4⟩
          · exact ⟨w.link.hs.sends.length, by rw [← h.len]; simp⟩
          · obtain ⟨t, h5⟩ := h.sent j z n q' h3 h4
            exact ⟨t, get_prefix (List.prefix_append _ _) h5⟩
        · have hn : (w.server.step (.go i)).cells[n]? = some (some o) := hn
          rw [h1] at hn
          have hn' : w.server.cells[n]? = some (some o) := by
            rcases Nat.lt_or_ge n w.server.cells.length with hl | hl
            · rwa [List.getElem?_append_left hl] at hn
            · rw [List.getElem?_append_right hl] at hn
              cases hk : n - w.server.cells.length with
              | zero => rw [hk] at hn; cases hn
              | succ k => rw [hk] at hn; cases hn
          obtain ⟨t, so, h5, h6, h7⟩ := h.cell n o hn'
          exact ⟨t, so, get_prefix (List.prefix_append _ _) h5, h6.grow hs hs' hgr, h7⟩
        · rcases List.mem_append.1 ht with ht | ht
          · exact get_prefix (takes_grow hgr) (h.given t ht)
          · rw [List.mem_singleton.1 ht]
            show (takes (w.link.srvDid ++ [HsOp.take (.request (asRequest q))]))[w.link.hs.sends.length]? = _
            rw [takes_append, hlen, List.getElem?_append_right (Nat.le_refl _), Nat.sub_self]
            rfl
        · show ((w.slots ++ [(w.link.hs.sends.length, asRequest q)]).map (·.1)).Nodup
          rw [List.map_append]
          refine List.nodup_append.2 ⟨h.tickets, by simp, ?_⟩
          rintro a ha b hb rfl
          simp only [List.map_cons, List.map_nil, List.mem_singleton] at hb
          obtain ⟨t, h3, rfl⟩ := List.mem_map.1 ha
          have := lt_of_get (h.given t h3)
          omega
      · rename_i hsafe; exact fun _ _ => quiet (.inr hsafe)
    · rename_i hq; exact fun _ _ => quiet (.inl hq)

theorem slots_world (c : LinkCfg) (s0 : SSelf D) (cli : Cli D H) (ops : List (Op D H)) : Slots ((World.init s0 cli).run c ops) := by
  induction ops using snoc_induction with
  | h0 => exact ⟨rfl, fun i x n q hx => (nomatch hx), fun n o hn => (nomatch hn), fun t ht => (nomatch ht), List.nodup_nil⟩
  | h1 ops op ih =>
    have := sides_world c s0 cli (ops ++ [op])
    rw [run_snoc] at this ⊢
    exact slots_step c (sides_world c s0 cli ops) ih op this

/-! ### The answers of the client -/

/-- The step dispatches this request. -/
def Dispatches (w : World D H) (op : Op D H) (q : Request D) (env : CliEnv D H) (r : Response D) : Prop :=
  ∃ j n e payload, op = .heed j env n e ∧ heard w.link j = some payload ∧ asked n e payload = some q ∧ w.dead = false ∧ (onRequest env w.cli q).1 = .answer r

/-- What the client is given at the end of an exchange of its own is no request. -/
theorem ended_replied {c : LinkCfg} {s : Http.Link D} (hl : LinkInv s) (hd : HtHandlers D) {i : Nat} {fl : Http.Flight}
    (hfl : s.flights[i]? = some fl) (b sid : Bytes) (hb : ∀ key st, fl.what = .request key st → BodyFor s.handled key b) :
    (s.ended c hd fl.post b sid).replied = s.replied := by
  obtain ⟨-, -, hst⟩ := hl.flights i fl hfl
  unfold Http.Link.ended
  split
  · rename_i key st _ hk
    have hw : fl.what = .request key st := by
      rcases hst with h1 | h1
      · rw [hk] at h1
        simp only [Option.some.injEq, Http.PostStage.sent.injEq] at h1
        exact h1.symm
      · rw [hk] at h1; cases h1
    show s.replied ++ clientReplies hd b = s.replied
    unfold clientReplies
    rw [(bodyFor_silent (hb key st hw) hd.wrap).2]
    simp
  · rfl
  · rfl

theorem wire_replied {c : LinkCfg} {s : Http.Link D} (hl : LinkInv s) (op : LinkOp D) (h : isEvent op = false) : (s.step c op).replied = s.replied := by
  cases op with
  | begin k => simp only [Http.Link.step, Http.Link.begin]; split <;> rfl
  | serve i now a f n e d => simp only [Http.Link.step, Http.Link.serve]; split <;> rfl
  | arrive hd i =>
    simp only [Http.Link.step, Http.Link.arrive]
    split
    · rename_i k p w r hi
      refine ended_replied hl hd hi r.body r.session (fun key st hw => ?_)
      rcases hl.replies i _ key st r hi hw rfl with h1 | ⟨q, out, h1⟩
      · exact .inl h1
      · exact .inr ⟨k, q, out, h1⟩
    · rfl
  | lose hd i =>
    simp only [Http.Link.step, Http.Link.lose]
    split
    · rename_i k p w r hi
      exact ended_replied hl hd hi [] [] (fun key st hw => .inl (.inl rfl))
    · rfl
  | listen now a f n e d => simp only [Http.Link.step, Http.Link.listen]; split <;> rfl
  | event hd j => cases h
  | _ => rfl

/-- The event that is heard is the one that is taken. -/
theorem heard_event {l : Http.Link D} {j : Nat} {payload : Bytes} (h : heard l j = some payload) (c : LinkCfg) (hd : HtHandlers D) :
    (∃ k i ok, l.hs.events[j]? = some (k, (i, payload), ok)) ∧ (l.step c (.event hd j)).replied = l.replied ++ clientReplies hd payload := by
  unfold heard at h
  split at h
  · rename_i k i p ok hj
    split at h
    · rename_i hc
      cases h
      refine ⟨⟨k, i, ok, hj⟩, ?_⟩
      simp only [Http.Link.step, Http.Link.event, hj]
      rw [if_pos hc]
    · cases h
  · cases h

theorem replied_step {c : LinkCfg} {w : World D H} (hs : Sides c w.link) (hl : LinkInv w.link) (hp : ∀ m, HsOp.take m ∈ w.link.srvDid → PlainGoing m)
    (ho : OwnSrvIds w.link.srvDid) (op : Op D H) :
    (∃ q env r m, Dispatches w op q env r ∧ (w.step c op).link.replied = w.link.replied ++ [(q, .resp r)] ∧ m ∈ named Hs.init w.link.srvDid ∧ q = m.req) ∨
    ((w.step c op).link.replied = w.link.replied ∧ ∀ q env r, ¬ Dispatches w op q env r) := by
  have text : ∀ (j : Nat) (n e : Bool) (payload : Bytes), heard w.link j = some payload →
      (∃ m ∈ named Hs.init w.link.srvDid, payload = serRequest m.req ∧ asked n e payload = some m.req ∧
        ∀ hd f, hd.wrap.request = some f → clientReplies hd payload = [(m.req, f m.req)]) ∨
      (asked (D := D) n e payload = none ∧ ∀ hd : HtHandlers D, clientReplies hd payload = []) := by
    intro j n e payload hh
    obtain ⟨⟨k, i, ok, hj⟩, -⟩ := heard_event hh c ⟨none, n, e⟩
    rw [hs.hs] at hj
    rcases event_named w.link.srvDid hp ho hj with ⟨m, h1, rfl⟩ | ⟨nt, h1, rfl⟩
    · have hpl := (naming_run w.link.srvDid hp ho).plain m h1
      refine .inl ⟨m, h1, rfl, ?_, fun hd f hf => ?_⟩
      · unfold asked
        rw [route_request _ _ rfl hpl]
        rfl
      · unfold clientReplies
        rw [route_request hd.wrap f hf hpl, hf]
        rfl
    · refine .inr ⟨?_, fun hd => ?_⟩
      · unfold asked
        rw [(route_note _ h1).2]; rfl
      · unfold clientReplies
        rw [(route_note _ h1).2]; rfl
  by_cases hD : ∃ q env r, Dispatches w op q env r
  · obtain ⟨q, env, r, j, n, e, payload, rfl, h1, h2, h3, h4⟩ := hD
    left
    rcases text j n e payload h1 with ⟨m, g1, g2, g3, g4⟩ | ⟨g1, -⟩
    · rw [h2] at g3
      cases g3
      refine ⟨m.req, env, r, m, ⟨j, n, e, payload, rfl, h1, h2, h3, h4⟩, ?_, g1, rfl⟩
      have hstep : (w.step c (.heed j env n e)).link = w.link.step c (.event ⟨some (fun _ => .resp r), n, e⟩ j) := by
        simp only [World.step, h3, Bool.false_eq_true, if_false, World.heed, h1, h2, h4]
      rw [hstep, (heard_event h1 c _).2, g4 _ _ rfl]
    · rw [h2] at g1; cases g1
  · refine .inr ⟨?_, fun q env r hd => hD ⟨q, env, r, hd⟩⟩
    have hm := link_step c w op
    generalize (w.step c op).link = l' at hm
    cases hm with
    | stay => rfl
    | wire lop h => exact wire_replied hl lop h
    | ask i q h => rfl
    | quiet j env n e payload h ha =>
      rw [(heard_event h c _).2]
      rcases text j n e payload h with ⟨m, -, -, g3, -⟩ | ⟨-, g2⟩
      · rw [ha] at g3; cases g3
      · rw [g2, List.append_nil]
    | reply j env n e payload q r h ha hr hd => exact absurd ⟨q, env, r, j, n, e, payload, rfl, h, ha, hd, hr⟩ hD

/-- What the client said, with the places of the execution it was said at. -/
structure Spoken (c : LinkCfg) (w : World D H) (ops : List (Op D H)) (L : List (Nat × Request D)) : Prop where
  list : (w.run c ops).link.replied.map (·.1) = L.map (·.2)
  said : ∀ q a, (q, a) ∈ (w.run c ops).link.replied → ∃ p env σ r, a = .resp r ∧ DispatchedAt c w ops p q env σ r
  places : ∀ p q env σ r, DispatchedAt c w ops p q env σ r → (p, q) ∈ L
  named : ∀ q a, (q, a) ∈ (w.run c ops).link.replied → ∃ m ∈ named Hs.init (w.run c ops).link.srvDid, q = m.req

theorem spoken_world (c : LinkCfg) (s0 : SSelf D) (cli : Cli D H) (ops : List (Op D H)) (hc : Carried c (World.init s0 cli) ops)
    (ho : OwnIds ((World.init s0 cli).run c ops).link.did) (hos : OwnSrvIds ((World.init s0 cli).run c ops).link.srvDid) :
    ∃ L, Spoken c (World.init s0 cli) ops L := by
  induction ops using snoc_induction with
  | h0 => exact ⟨[], rfl, (fun q a h => nomatch h), (fun p q env σ r h => by obtain ⟨_, _, _, _, h, -⟩ := h; cases h), (fun q a h => nomatch h)⟩
  | h1 ops op ih =>
    have hgr := move_grows (link_step c ((World.init s0 cli).run c ops) op)
    rw [run_snoc] at ho hos
    have ho' := ownIds_prefix hgr.2 ho
    have hos' : OwnSrvIds ((World.init s0 cli).run c ops).link.srvDid := by
      obtain ⟨t, ht⟩ := hgr.1
      rw [← ht] at hos
      exact ownSrvIds_init hos
    obtain ⟨L, h1, h2, h3, h4⟩ := ih hc.prefix ho' hos'
    obtain ⟨lops, l1, l2, -⟩ := link_run c s0 cli ops hc.prefix
    have hl : LinkInv ((World.init s0 cli).run c ops).link := by rw [l1] at ho' ⊢; exact linkInv_run c hc.reasons lops l2 ho'
    have hp : ∀ m, HsOp.take m ∈ ((World.init s0 cli).run c ops).link.srvDid → PlainGoing m := by
      rw [l1] at ho' ⊢
      exact (ansInv_run c hc.reasons lops l2 ho').plain
    have mono : ∀ m ∈ named Hs.init ((World.init s0 cli).run c ops).link.srvDid, m ∈ named Hs.init ((World.init s0 cli).run c (ops ++ [op])).link.srvDid := by
      intro m hm
      rw [run_snoc]
      obtain ⟨t, ht⟩ := hgr.1
      rw [← ht, named_append]
      exact List.mem_append_left _ hm
    have old : ∀ p q env σ r, DispatchedAt c (World.init s0 cli) (ops ++ [op]) p q env σ r → p < ops.length → (p, q) ∈ L := by
      rintro p q env σ r ⟨j, n, e, payload, k1, k2⟩ hlt
      rw [List.getElem?_append_left hlt] at k1
      rw [List.take_append_of_le_length (Nat.le_of_lt hlt)] at k2
      exact h3 p q env σ r ⟨j, n, e, payload, k1, k2⟩
    have last : ∀ p q env σ r, DispatchedAt c (World.init s0 cli) (ops ++ [op]) p q env σ r → ¬ p < ops.length →
        p = ops.length ∧ Dispatches ((World.init s0 cli).run c ops) op q env r := by
      rintro p q env σ r ⟨j, n, e, payload, k1, k2, k3, k4, k5, k6⟩ hlt
      have hp := lt_of_get k1
      rw [List.length_append, List.length_singleton] at hp
      have hp : p = ops.length := by omega
      subst hp
      have ht : (ops ++ [op]).take ops.length = ops := by simp
      rw [ht] at k2 k4 k5
      rw [List.getElem?_append_right (Nat.le_refl _), Nat.sub_self] at k1
      cases k1
      subst k4
      exact ⟨rfl, j, n, e, payload, rfl, k2, k3, k5, k6⟩
    rcases replied_step (sides_world c s0 cli ops) hl hp hos' op with ⟨q, env, r, m, ⟨j, n, e, payload, rfl, d1, d2, d3, d4⟩, g1, g2, g3⟩ | ⟨g1, g2⟩
    · refine ⟨L ++ [(ops.length, q)], by rw [run_snoc, g1, List.map_append, List.map_append, h1]; rfl, fun q' a hq => ?_, fun p q' env' σ r' hd => ?_, fun q' a hq => ?_⟩
      · rw [run_snoc, g1] at hq
        rcases List.mem_append.1 hq with hq | hq
        · obtain ⟨p, env', σ, r', k1, k2⟩ := h2 q' a hq
          exact ⟨p, env', σ, r', k1, k2.more _⟩
        · cases List.mem_singleton.1 hq
          exact ⟨_, _, _, _, rfl, dispatched_last d1 d2 d3 d4⟩
      · by_cases hlt : p < ops.length
        · exact List.mem_append_left _ (old p q' env' σ r' hd hlt)
        · obtain ⟨rfl, j', n', e', payload', k0, k1, k2, -⟩ := last p q' env' σ r' hd hlt
          cases k0
          rw [d1] at k1
          cases k1
          rw [d2] at k2
          cases k2
          exact List.mem_append_right _ (List.mem_singleton.2 rfl)
      · rw [run_snoc, g1] at hq
        rcases List.mem_append.1 hq with hq | hq
        · obtain ⟨m', k1, k2⟩ := h4 q' a hq
          exact ⟨m', mono m' k1, k2⟩
        · cases List.mem_singleton.1 hq
          exact ⟨m, mono m g2, g3⟩
    · refine ⟨L, by rw [run_snoc, g1]; exact h1, fun q' a hq => ?_, fun p q' env' σ r' hd => ?_, fun q' a hq => ?_⟩
      · rw [run_snoc, g1] at hq
        obtain ⟨p, env', σ, r', k1, k2⟩ := h2 q' a hq
        exact ⟨p, env', σ, r', k1, k2.more _⟩
      · by_cases hlt : p < ops.length
        · exact old p q' env' σ r' hd hlt
        · exact absurd (last p q' env' σ r' hd hlt).2 (g2 q' env' r')
      · rw [run_snoc, g1] at hq
        obtain ⟨m', k1, k2⟩ := h4 q' a hq
        exact ⟨m', mono m' k1, k2⟩

end Verif.Reach
