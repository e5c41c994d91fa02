import Verif.Web.Once

/-!
C116: a call of the client over HTTP gives what the server answered to it, and each dispatch of the server is for one call only.
-/

namespace Verif.Web

open Verif.Await Verif.Client Verif.Server Verif.Http
open Verif.Whole (asRequest asking snoc_induction NoValue lt_of_get answer_tool answer_prompt error_value)
open Verif.InMemory (PlainReq PlainNote)

variable {D H : Type} [DblFmt D]

/-! ### Specification -/

/-- What a call is told when its request got no answer of the server. -/
def Unanswered (o : Client.Outcome D) : Prop :=
  ∃ id text, text ∈ [lit "Mismatched response id", lit "Invalid/empty HTTP response", lit "Transport closed", lit "Transport not connected"] ∧
    o = .resp ⟨id, none, some (.obj [(lit "code", .int (-32603)), (lit "message", .str text)])⟩

/-! ### The claims -/

theorem key_fut {c : LinkCfg} {w : World D H} {l : List (Nat × Request D)} (h : Inv c w l) (few : w.slots.length < 2 ^ 32) {m m' : Nat} {q q' : Request D}
    (h1 : (m, q) ∈ l) (h2 : (m', q') ∈ l) (hk : keyText q.id = keyText q'.id) : m = m' := by
  have hid := idInv_run c.client w.link.did (h.own few)
  rw [← h.sides.ht] at hid
  have hn := (List.nodup_append.1 hid.nodup).1
  rw [h.filed.sent] at hn
  have key : ∀ l : List (Nat × Request D), ((l.map (fun x => (x.1, keyText x.2.id))).map (·.2)).Nodup → (m, q) ∈ l → (m', q') ∈ l → m = m' := by
    intro l
    induction l with
    | nil => intro _ h; cases h
    | cons x l ih =>
      intro hn h1 h2
      simp only [List.map_cons, List.nodup_cons] at hn
      have out : ∀ {n : Nat} {y : Request D}, (n, y) ∈ l → keyText y.id ∈ (l.map (fun x => (x.1, keyText x.2.id))).map (·.2) := by
        intro n y hy
        rw [List.map_map]
        exact List.mem_map.2 ⟨(n, y), hy, rfl⟩
      rcases List.mem_cons.1 h1 with g1 | g1 <;> rcases List.mem_cons.1 h2 with g2 | g2
      · subst g1; cases g2; rfl
      · subst g1; refine absurd (out g2) ?_; rw [← hk]; exact hn.1
      · subst g2; refine absurd (out g1) ?_; rw [hk]; exact hn.1
      · exact ih hn.2 g1 g2
  exact key l hn h1 h2

theorem fut_fun {c : LinkCfg} {w : World D H} {l : List (Nat × Request D)} (h : Inv c w l) {m : Nat} {q q' : Request D} (h1 : (m, q) ∈ l) (h2 : (m, q') ∈ l) : q = q' := by
  have hn := (tab_inv h.sides).sentFun
  rw [h.filed.sent, List.map_map] at hn
  exact nodup_map_fst_eq hn h1 h2

/-- What became of call `i`: the request the server dispatched for it was filed under its future. -/
theorem result_of (c : LinkCfg) (s0 : Self D) (srv : Srv D H) (ops : List (Op D H)) (hc : Carried c (World.init s0 srv) ops)
    (few : ((World.init s0 srv).run c ops).slots.length < 2 ^ 32) {l : List (Nat × Request D)} (hinv : Inv c ((World.init s0 srv).run c ops) l)
    (i : Nat) (x : CCall D) (api : Api D) (res : Option (Val D))
    (hx : ((World.init s0 srv).run c ops).client.calls[i]? = some x) (hprog : x.prog = body api) (hst : x.st = .over res) :
    (∃ k d s', api = .list k ∧ Ev.saw s' ∈ x.path ∧ s'.cache.hit k = some d ∧ res = some (.items d)) ∨
    (∃ o kind, Unanswered o ∧ res = says s0.strict kind api o) ∨
    ∃ p id env σ r kind, DispatchedAt c (World.init s0 srv) ops p ⟨id, (question api).method, (question api).params⟩ env σ (.answer r) ∧
      res = says s0.strict kind api (.resp ⟨id, r.result, r.error⟩) ∧
      (∀ t, api = .taskResult t → r.error = none → r.result ≠ none → ∃ s', Ev.saw s' ∈ x.path ∧ kind = s'.kinds t) ∧
      ∃ n m, n ∈ sentOf x.path ∧ ((World.init s0 srv).run c ops).slots[n]? = some (.fut m) ∧ (m, ⟨id, (question api).method, (question api).params⟩) ∈ l := by
  obtain ⟨cops, h1, h2, h3⟩ := client_run c s0 srv ops
  have hcalm : ∀ op ∈ cops, Calm op := by
    intro op hop
    cases op with
    | call b => obtain ⟨api, h4, -⟩ := h2 b hop; exact ⟨api, h4⟩
    | change u => exact hc.mode u (h3 u hop)
    | _ => trivial
  have hx' := hx
  rw [h1] at hx'
  rcases C102_outcome s0 cops hcalm i x hx' api hprog res hst with ⟨k, d, s', h4, h5, h6, -, h7⟩ | ⟨n, o, kind, h4, h5, h6, h7, hk, -⟩
  · exact .inl ⟨k, d, s', h4, h5, h6, h7⟩
  · obtain ⟨sl, h8, h9⟩ := hinv.sent i x n _ hx h5
    obtain ⟨m, so, h10, h11, h12⟩ := hinv.cell n o (by rw [h1]; exact h6)
    rw [h8] at h10
    cases h10
    have htab := tab_inv hinv.sides
    rcases h9 with ⟨y, hy, hmeth, hpar⟩ | ⟨hr, -⟩
    · have hid := idInv_run c.client _ (hinv.own few)
      rw [← hinv.sides.ht] at hid
      have hsent : (m, keyText y.id) ∈ ((World.init s0 srv).run c ops).link.ht.tab.sent := by
        rw [hinv.filed.sent]
        exact List.mem_map.2 ⟨(m, y), hy, rfl⟩
      cases so with
      | broken => exact absurd rfl (hid.noBroken _ h11)
      | resp r =>
        rcases (hinv.link hc.reasons few).outcomes m _ r hsent h11 with ⟨k1, k2, text, k3, k4⟩ | ⟨k, q, out, k1, k2, k3⟩
        · refine .inr (.inl ⟨o, kind, ⟨r.id, text, ?_, ?_⟩, h7⟩)
          · simp only [List.mem_cons, List.not_mem_nil, or_false] at k3 ⊢
            rcases k3 with k3 | k3 | k3
            · exact .inl k3
            · exact .inr (.inl k3)
            · exact .inr (.inr (.inl k3))
          · rw [h12, show (seen (.resp r) : Client.Outcome D) = .resp r from rfl, ← k2, ← k4]
        · obtain ⟨p, env, σ, r', rfl, hd⟩ := handled_world c s0 srv ops hc few k1
          obtain ⟨m', hm'⟩ := hinv.filed.handled _ _ _ k1
          have hmm := key_fut hinv few hm' hy k2
          subst hmm
          have hqy := fut_fun hinv hm' hy
          subst hqy
          have hq : (⟨q.id, (question api).method, (question api).params⟩ : Request D) = q := by
            obtain ⟨a, b, d⟩ := q
            simp only at hmeth hpar
            rw [hmeth, hpar]
          refine .inr (.inr ⟨p, q.id, env, σ, r', kind, by rw [hq]; exact hd, ?_, fun t ht he hres => hk t ht ?_, n, m', by rw [h4]; simp, h8, by rw [hq]; exact hm'⟩)
          · rw [h7, h12, k3]; rfl
          · rw [h12, k3]
            show (r'.error.isNone && r'.result.isSome) = true
            rw [he]
            cases hres' : r'.result with
            | none => exact absurd hres' hres
            | some v => rfl
    · have hso : so = refused := nodup_map_fst_eq htab.once h11 hr
      subst hso
      exact .inr (.inl ⟨o, kind, ⟨.str [], lit "Transport not connected", by simp, by rw [h12]; rfl⟩, h7⟩)

/-- C116, partial. Calls of the client and dispatches of the server belong to each other one to one: every dispatch the server began for a request of this
client and did not leave waiting, whether it gave an answer or an exception ended it, was for one call, with its method and its parameters, and no call was
dispatched twice; and a call that has given its result is a listing served from the cache, or it was told by its transport that there is no answer, or its
result is what the call makes of the answer of its dispatch. Missing: traffic the wire format does not carry (C04 to C06, C15), and more than four thousand million
requests, after which the numbers of the transport come again. -/
theorem C116_matched_partial (c : LinkCfg) (s0 : Self D) (srv : Srv D H) (ops : List (Op D H)) (hc : Carried c (World.init s0 srv) ops) :
    let w := (World.init s0 srv).run c ops
    w.slots.length < 2 ^ 32 →
      ∃ place : Nat → Nat → Prop, (∀ i j p, place i p → place j p → i = j) ∧ (∀ i p p', place i p → place i p' → p = p') ∧
        (∀ p q env σ o, DispatchedAt c (World.init s0 srv) ops p q env σ o → o ≠ .blocked →
          ∃ i x api, place i p ∧ w.client.calls[i]? = some x ∧ x.prog = body api ∧ q.method = (question api).method ∧ q.params = (question api).params) ∧
        ∀ (i : Nat) (x : CCall D) (api : Api D) (res : Option (Val D)), w.client.calls[i]? = some x → x.prog = body api → x.st = .over res →
          (∃ k d s', api = .list k ∧ Ev.saw s' ∈ x.path ∧ s'.cache.hit k = some d ∧ res = some (.items d)) ∨
          (∃ o kind, Unanswered o ∧ res = says s0.strict kind api o) ∨
          ∃ p id env σ r kind, place i p ∧ DispatchedAt c (World.init s0 srv) ops p ⟨id, (question api).method, (question api).params⟩ env σ (.answer r) ∧
            res = says s0.strict kind api (.resp ⟨id, r.result, r.error⟩) ∧
            (∀ t, api = .taskResult t → r.error = none → r.result ≠ none → ∃ s', Ev.saw s' ∈ x.path ∧ kind = s'.kinds t) := by
  intro w few
  obtain ⟨l, hinv, htr⟩ := traced c s0 srv ops hc few
  obtain ⟨cops, g1, g2, -⟩ := client_run c s0 srv ops
  have hperm := (inv_run s0 cops).perm
  rw [← g1] at hperm
  refine ⟨fun i p => ∃ (x : CCall D) (n m : Nat) (q : Request D) (env : Env D H) (σ : Srv D H) (o : Out D), w.client.calls[i]? = some x ∧ n ∈ sentOf x.path ∧
    w.slots[n]? = some (.fut m) ∧ (m, q) ∈ l ∧ DispatchedAt c (World.init s0 srv) ops p q env σ o ∧ o ≠ .blocked, ?_, ?_, ?_, ?_⟩
  · rintro i j p ⟨x, n, m, q, env, σ, o, h1, h2, h3, h4, h5, h6⟩ ⟨x', n', m', q', env', σ', o', h1', h2', h3', h4', h5', h6'⟩
    have hq : q = q' := by
      obtain ⟨i, now, a, n, e, d, out, tok, rest, k1, k2, k3, -⟩ := h5
      obtain ⟨i', now', a', n', e', d', out', tok', rest', k1', k2', k3', -⟩ := h5'
      rw [k1] at k1'
      cases k1'
      rw [k2] at k2'
      cases k2'
      rw [k3] at k3'
      cases k3'
      rfl
    subst hq
    have hm := key_fut hinv few h4 h4' rfl
    subst hm
    have hn : n = n' := (List.getElem?_inj (lt_of_get h3) hinv.nodup).1 (h3.trans h3'.symm)
    subst hn
    exact flat_nodup (hperm.nodup_iff.2 List.nodup_range) h1' h1 (c := n) h2' h2
  · rintro i p p' ⟨x, n, m, q, env, σ, o, h1, h2, h3, h4, h5, h6⟩ ⟨x', n', m', q', env', σ', o', h1', h2', h3', h4', h5', h6'⟩
    rw [h1] at h1'
    cases h1'
    obtain ⟨api, hp⟩ := call_prog c s0 srv ops h1
    have hn : n = n' := (call_asks s0 cops (by rw [← g1]; exact h1) hp).2 n n' h2 h2'
    subst hn
    rw [h3] at h3'
    cases h3'
    have hq := fut_fun hinv h4 h4'
    subst hq
    exact dispatched_once c s0 srv ops hc few h5 h6 h5' h6' rfl
  · intro p q env σ o hd hb
    obtain ⟨⟨m, hm⟩, -⟩ := htr p q env σ o hd
    obtain ⟨n, hn⟩ := List.getElem?_of_mem (hinv.owner _ hm)
    have hlt : n < w.client.cells.length := by rw [← hinv.len]; exact lt_of_get hn
    have hmem := hperm.symm.subset (List.mem_range.2 hlt)
    obtain ⟨x, hx, hnx⟩ := List.mem_flatMap.1 hmem
    obtain ⟨i, hi⟩ := List.getElem?_of_mem hx
    obtain ⟨api, hp⟩ := call_prog c s0 srv ops hi
    obtain ⟨q0, hq0⟩ := mem_sentOf.1 hnx
    have hq := (call_asks s0 cops (by rw [← g1]; exact hi) hp).1 n q0 hq0
    subst hq
    obtain ⟨sl, k1, k2⟩ := hinv.sent i x n _ hi hq0
    rw [hn] at k1
    cases k1
    rcases k2 with ⟨y, k3, k4, k5⟩ | ⟨-, k3⟩
    · have := fut_fun hinv hm k3
      subst this
      exact ⟨i, x, api, ⟨x, n, m, q, env, σ, o, hi, hnx, hn, hm, hd, hb⟩, hi, hp, k4, k5⟩
    · exact absurd hm (k3 q)
  · intro i x api res hx hprog hst
    rcases result_of c s0 srv ops hc few hinv i x api res hx hprog hst with h | h | ⟨p, id, env, σ, r, kind, h1, h2, h3, n, m, h4, h5, h6⟩
    · exact .inl h
    · exact .inr (.inl h)
    · exact .inr (.inr ⟨p, id, env, σ, r, kind, ⟨x, n, m, _, env, σ, _, hx, h4, h5, h6, h1, fun h => (nomatch h)⟩, h1, h2, h3⟩)

/-! ### Tools and prompts -/

theorem unanswered_value {o : Client.Outcome D} (h : Unanswered o) : isErrorObject (replyValue o) = true := by
  obtain ⟨id, text, -, rfl⟩ := h
  rfl

/-- C116, partial. `CallTool` over HTTP gives a value that is not an error object only if, while the server served a POST of this client, it had a handler under this
name, and this handler returned, for exactly these arguments, exactly the content, the error flag, the structured content and the metadata that the value has.
Missing: as for `C116_matched_partial`. -/
theorem C116_tool_partial (c : LinkCfg) (s0 : Self D) (srv : Srv D H) (ops : List (Op D H)) (hc : Carried c (World.init s0 srv) ops) :
    let w := (World.init s0 srv).run c ops
    w.slots.length < 2 ^ 32 → ∀ (i : Nat) (x : CCall D) (name : Bytes) (args : JVal D) (res : Option (Val D)),
      w.client.calls[i]? = some x → x.prog = body (.callTool name args) → x.st = .over res →
        ∃ v, res = some (.json v) ∧ (isErrorObject v = true ∨
          ∃ p j now a env n e d h t, ops[p]? = some (.serve j now a env n e d) ∧ AMap.get ((World.init s0 srv).run c (ops.take p)).srv.reg.toolHandlers name = some h ∧
            env.tool h args = .ret t ∧ v.get? (lit "content") = some (.arr t.content) ∧ v.get? (lit "isError") = some (.bool t.isError) ∧
            v.get? (lit "structuredContent") = t.structured ∧ v.get? (lit "_meta") = t.meta_) := by
  intro w few i x name args res hx hprog hst
  obtain ⟨l, hinv, -⟩ := traced c s0 srv ops hc few
  rcases result_of c s0 srv ops hc few hinv i x _ res hx hprog hst with ⟨k, d, s', h, -⟩ | ⟨o, kind, h1, h2⟩ | ⟨p, id, env, σ, r, kind, h1, h2, -⟩
  · cases h
  · exact ⟨_, h2, .inl (unanswered_value h1)⟩
  · refine ⟨_, h2, ?_⟩
    obtain ⟨j, now, a, n, e, d, out, tok, rest, g1, -, -, g3, g5⟩ := h1
    rcases answer_tool env σ id name args r g5 with ⟨k1, code, msg, k2⟩ | ⟨hd, t, k1, -, k3, k4, k5⟩
    · exact .inl (by rw [k1, k2]; rfl)
    · refine .inr ⟨p, j, now, a, env, n, e, d, hd, t, g1, by rw [g3]; exact k1, k3, ?_⟩
      obtain ⟨f1, f2, f3, f4, -⟩ := toolResult_get t
      rw [k4]
      exact ⟨f1, f2, f3, f4⟩

/-- C116, partial. `GetPrompt` over HTTP gives a value that is not an error object only if the handler the server had under this name while it served a POST of this client
returned, for exactly these arguments, exactly this description and these messages. Missing: as for `C116_matched_partial`. -/
theorem C116_prompt_partial (c : LinkCfg) (s0 : Self D) (srv : Srv D H) (ops : List (Op D H)) (hc : Carried c (World.init s0 srv) ops) :
    let w := (World.init s0 srv).run c ops
    w.slots.length < 2 ^ 32 → ∀ (i : Nat) (x : CCall D) (name : Bytes) (args : JVal D) (res : Option (Val D)),
      w.client.calls[i]? = some x → x.prog = body (.getPrompt name args) → x.st = .over res →
        ∃ v, res = some (.json v) ∧ (isErrorObject v = true ∨
          ∃ p j now a env n e d h ds ms, ops[p]? = some (.serve j now a env n e d) ∧
            AMap.get ((World.init s0 srv).run c (ops.take p)).srv.reg.promptHandlers name = some h ∧
            env.prompt h args = .ret (ds, ms) ∧ v = .obj [(lit "description", .str ds), (lit "messages", .arr ms)]) := by
  intro w few i x name args res hx hprog hst
  obtain ⟨l, hinv, -⟩ := traced c s0 srv ops hc few
  rcases result_of c s0 srv ops hc few hinv i x _ res hx hprog hst with ⟨k, d, s', h, -⟩ | ⟨o, kind, h1, h2⟩ | ⟨p, id, env, σ, r, kind, h1, h2, -⟩
  · cases h
  · exact ⟨_, h2, .inl (unanswered_value h1)⟩
  · refine ⟨_, h2, ?_⟩
    obtain ⟨j, now, a, n, e, d, out, tok, rest, g1, -, -, g3, g5⟩ := h1
    rcases answer_prompt env σ id name args r g5 with ⟨k1, code, msg, k2⟩ | ⟨hd, ds, ms, k1, k3, k4, k5⟩
    · exact .inl (by rw [k1, k2]; rfl)
    · exact .inr ⟨p, j, now, a, env, n, e, d, hd, ds, ms, g1, by rw [g3]; exact k1, k3, by rw [k4]; rfl⟩

end Verif.Web
