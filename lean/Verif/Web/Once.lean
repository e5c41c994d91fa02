import Verif.Web.Steps

/-! Helper lemmas for C116: a call asks once, and no request is dispatched twice. -/

namespace Verif.Web

open Verif.Await Verif.Client Verif.Server Verif.Http
open Verif.Whole (asRequest asking snoc_induction AsksOnly asks_mode asks_give asks_body lt_of_get)
open Verif.InMemory (PlainReq PlainNote)

variable {D H : Type} [DblFmt D]

/-! ### What a call asks -/

/-- The body sends this request at most once. -/
def AsksOnce (q0 : Req D) : CBody D → Prop
  | .ret _ => True
  | .arg k => AsksOnce q0 k
  | .own _ k => ∀ s, AsksOnce q0 (k s)
  | .ask q k => q = q0 ∧ ∀ o, AsksOnly (fun _ => False) (k o)

theorem once_body (api : Api D) : AsksOnce (question api) (body api) := by
  cases api with
  | init info caps =>
    refine fun _ => ⟨rfl, fun o => ?_⟩
    cases o with
    | resp r =>
      dsimp only
      split
      · exact fun _ => trivial
      · trivial
    | threw => trivial
    | nul => trivial
  | callTool name args => exact ⟨rfl, fun o => trivial⟩
  | getPrompt name args => exact ⟨rfl, fun o => trivial⟩
  | readResource uri => exact ⟨rfl, fun o => trivial⟩
  | readRange uri off len => exact ⟨by cases off <;> cases len <;> rfl, fun o => trivial⟩
  | subscribe uri => exact ⟨by cases uri <;> rfl, fun o => trivial⟩
  | unsubscribe uri => exact ⟨by cases uri <;> rfl, fun o => trivial⟩
  | complete a => exact ⟨by obtain ⟨r, n, v, c⟩ := a; cases c <;> rfl, fun o => asks_mode _ _ _ fun b => asks_give _ _ _⟩
  | ping =>
    refine ⟨rfl, fun o => asks_mode _ _ _ fun b => ?_⟩
    split <;> trivial
  | callToolTask name args ttl =>
    refine ⟨by cases ttl <;> rfl, fun o => asks_mode _ _ _ fun b => ?_⟩
    split
    · trivial
    · exact fun _ => trivial
  | getTask id => exact ⟨rfl, fun o => asks_mode _ _ _ fun b => asks_give _ _ _⟩
  | cancelTask id => exact ⟨rfl, fun o => asks_mode _ _ _ fun b => asks_give _ _ _⟩
  | taskResult id =>
    refine ⟨rfl, fun o => ?_⟩
    dsimp only
    split
    · exact fun _ => fun _ => asks_give _ _ _
    · exact asks_give _ _ _
  | listTasks => exact ⟨rfl, fun o => asks_mode _ _ _ fun b => asks_give _ _ _⟩
  | listTasksPaged c l => exact ⟨by rw [pageParams_eq]; rfl, fun o => asks_mode _ _ _ fun b => asks_give _ _ _⟩
  | list k =>
    intro s
    dsimp only
    split
    · trivial
    · refine ⟨by cases k <;> rfl, fun o => asks_mode _ _ _ fun b => ?_⟩
      split
      · trivial
      · exact fun _ => trivial
  | listPaged k c l => exact ⟨by rw [pageParams_eq]; cases k <;> rfl, fun o => asks_mode _ _ _ fun b => asks_give _ _ _⟩

theorem ends_none {b : CBody D} : ∀ {evs : List (Ev (Self D) (Req D) (Client.Outcome D))} {r : Option (Val D)}, Ends b evs r → AsksOnly (fun _ => False) b → ∀ n q, Ev.sent n q ∉ evs := by
  induction b with
  | ret r' => rintro evs r ⟨rfl, -⟩ _ n q h; cases h
  | arg k ih => exact fun h h' => ih h h'
  | own u k ih =>
    rintro evs r ⟨s, rest, rfl, h⟩ h' n q hm
    rcases List.mem_cons.1 hm with hm | hm
    · cases hm
    · exact ih s h (h' s) n q hm
  | ask q k ih => exact fun _ h' => absurd h'.1 id

/-- What a body that asks once has sent when it ends. -/
theorem ends_once {q0 : Req D} {b : CBody D} : ∀ {evs : List (Ev (Self D) (Req D) (Client.Outcome D))} {r : Option (Val D)}, Ends b evs r → AsksOnce q0 b →
    (∀ n q, Ev.sent n q ∈ evs → q = q0) ∧ ∀ n n' q q', Ev.sent n q ∈ evs → Ev.sent n' q' ∈ evs → n = n' := by
  induction b with
  | ret r' => rintro evs r ⟨rfl, -⟩ _; exact ⟨fun n q h => (nomatch h), fun n n' q q' h => (nomatch h)⟩
  | arg k ih => exact fun h h' => ih h h'
  | own u k ih =>
    rintro evs r ⟨s, rest, rfl, h⟩ h'
    obtain ⟨h1, h2⟩ := ih s h (h' s)
    have drop : ∀ n q, Ev.sent n q ∈ (Ev.saw s :: rest : List (Ev (Self D) (Req D) (Client.Outcome D))) → Ev.sent n q ∈ rest := by
      intro n q hm
      rcases List.mem_cons.1 hm with hm | hm
      · cases hm
      · exact hm
    exact ⟨fun n q hm => h1 n q (drop n q hm), fun n n' q q' hm hm' => h2 n n' q q' (drop n q hm) (drop n' q' hm')⟩
  | ask q k ih =>
    rintro evs r ⟨c, a, rest, rfl, h⟩ ⟨rfl, h'⟩
    have only : ∀ n q', Ev.sent n q' ∈ (Ev.sent c q :: Ev.got c a :: rest : List (Ev (Self D) (Req D) (Client.Outcome D))) → n = c ∧ q' = q := by
      intro n q' hm
      rcases List.mem_cons.1 hm with hm | hm
      · cases hm; exact ⟨rfl, rfl⟩
      · rcases List.mem_cons.1 hm with hm | hm
        · cases hm
        · exact absurd hm (ends_none h (h' a) n q')
    exact ⟨fun n q' hm => (only n q' hm).2, fun n n' q' q'' hm hm' => (only n q' hm).1.trans (only n' q'' hm').1.symm⟩

/-- Every body can end. -/
theorem ends_somehow (s0 : Self D) (b : CBody D) : ∃ evs r, Ends b evs r := by
  induction b with
  | ret r => exact ⟨[], r, rfl, rfl⟩
  | arg k ih => exact ih
  | own u k ih => obtain ⟨evs, r, h⟩ := ih s0; exact ⟨_, r, s0, evs, rfl, h⟩
  | ask q k ih => obtain ⟨evs, r, h⟩ := ih .threw; exact ⟨_, r, 0, .threw, evs, rfl, h⟩

theorem tail_somehow (s0 : Self D) {x : CCall D} (h : Tail x.prog x.path x.st) : ∃ more r, Ends x.prog (x.path ++ more) r := by
  cases hs : x.st with
  | run b => rw [hs] at h; obtain ⟨evs, r, h'⟩ := ends_somehow s0 b; exact ⟨evs, r, h evs r h'⟩
  | check c k => rw [hs] at h; obtain ⟨evs, r, h'⟩ := ends_somehow s0 (k .threw); exact ⟨_, r, h .threw evs r h'⟩
  | wait c k => rw [hs] at h; obtain ⟨evs, r, h'⟩ := ends_somehow s0 (k .threw); exact ⟨_, r, h .threw evs r h'⟩
  | over r => rw [hs] at h; exact ⟨[], r, by rw [List.append_nil]; exact h⟩

theorem mem_sentOf {n : Nat} : ∀ {l : List (Ev (Self D) (Req D) (Client.Outcome D))}, n ∈ sentOf l ↔ ∃ q, Ev.sent n q ∈ l := by
  intro l
  induction l with
  | nil => exact ⟨fun h => (nomatch h), fun ⟨q, h⟩ => (nomatch h)⟩
  | cons e l ih =>
    cases e with
    | sent c q =>
      simp only [sentOf, List.mem_cons, ih]
      constructor
      · rintro (rfl | ⟨q', h⟩)
        · exact ⟨q, .inl rfl⟩
        · exact ⟨q', .inr h⟩
      · rintro ⟨q', h | h⟩
        · cases h; exact .inl rfl
        · exact .inr ⟨q', h⟩
    | saw s => simp [sentOf, ih]
    | got c a => simp [sentOf, ih]

/-- A call of the client sends its own request, once. -/
theorem call_asks (s0 : Self D) (cops : List (COp D)) {i : Nat} {x : CCall D} {api : Api D} (hx : ((Sys.init s0).run cops).calls[i]? = some x) (hp : x.prog = body api) :
    (∀ n q, Ev.sent n q ∈ x.path → q = question api) ∧ ∀ n n', n ∈ sentOf x.path → n' ∈ sentOf x.path → n = n' := by
  obtain ⟨more, r, h⟩ := tail_somehow s0 ((inv_run s0 cops).tr i x hx).tail
  rw [hp] at h
  obtain ⟨h1, h2⟩ := ends_once h (once_body api)
  refine ⟨fun n q hm => h1 n q (List.mem_append_left _ hm), fun n n' hn hn' => ?_⟩
  obtain ⟨q, hq⟩ := mem_sentOf.1 hn
  obtain ⟨q', hq'⟩ := mem_sentOf.1 hn'
  exact h2 n n' q q' (List.mem_append_left _ hq) (List.mem_append_left _ hq')

/-- Every call of the client is one of its operations. -/
theorem call_prog (c : LinkCfg) (s0 : Self D) (srv : Srv D H) (ops : List (Op D H)) {i : Nat} {x : CCall D}
    (hx : ((World.init s0 srv).run c ops).client.calls[i]? = some x) : ∃ api, x.prog = body api := by
  obtain ⟨cops, h1, h2, -⟩ := client_run c s0 srv ops
  rw [h1] at hx
  have key : ∀ l : List (COp D), (∀ b, Await.Op.call b ∈ l → ∃ api, b = body api) → ∀ s : CSys D, (∀ (i : Nat) (x : CCall D), s.calls[i]? = some x → ∃ api, x.prog = body api) →
      ∀ (i : Nat) (x : CCall D), (s.run l).calls[i]? = some x → ∃ api, x.prog = body api := by
    intro l
    induction l with
    | nil => exact fun _ s h => h
    | cons op l ih =>
      intro hl s h
      rw [run_cons]
      exact ih (fun b hb => hl b (List.mem_cons_of_mem _ hb)) _
        (progs_step (P := fun b => ∃ api, b = body api) s op (fun b hb => hl b (by rw [hb]; exact List.mem_cons_self ..)) h)
  exact key cops (fun b hb => (h2 b hb).imp fun api h => h.1) (Sys.init s0) (fun i x hx => (nomatch hx)) i x hx

/-! ### Flights that were served -/

/-- The flight of this key is over for the server: it was served, or its connection was ended. -/
def Spent (w : World D H) (key : Bytes) : Prop :=
  ∃ (i : Nat) (fl : Flight) (st : Bool), w.link.flights[i]? = some fl ∧ fl.what = .request key st ∧ (fl.reply ≠ none ∨ i ∈ w.ended)

theorem flights_kept (c : LinkCfg) (s : Http.Link D) (op : LinkOp D) {i : Nat} {fl : Flight} (h : s.flights[i]? = some fl) :
    ∃ fl', (s.step c op).flights[i]? = some fl' ∧ fl'.what = fl.what ∧ (fl.reply ≠ none → fl'.reply ≠ none) := by
  have same : (s.step c op).flights = s.flights → ∃ fl', (s.step c op).flights[i]? = some fl' ∧ fl'.what = fl.what ∧ (fl.reply ≠ none → fl'.reply ≠ none) :=
    fun he => ⟨fl, by rw [he]; exact h, rfl, id⟩
  cases op with
  | begin k =>
    simp only [Link.step, Link.begin]
    split
    · exact ⟨fl, getElem?_append_of_some h, rfl, id⟩
    · exact ⟨fl, h, rfl, id⟩
  | serve j now a f n e d =>
    simp only [Link.step, Link.serve]
    split
    · rename_i k p w hfl
      by_cases hij : j = i
      · subst hij
        rw [h] at hfl
        cases hfl
        exact ⟨_, List.getElem?_set_self (lt_of_get h), rfl, fun hr => absurd rfl hr⟩
      · exact ⟨fl, by rw [List.getElem?_set_ne hij]; exact h, rfl, id⟩
    · exact ⟨fl, h, rfl, id⟩
  | start => exact same (flights_link c s .start (fun _ => nofun) (fun _ _ _ _ _ _ _ => nofun)).1
  | send r => exact same (flights_link c s (.send r) (fun _ => nofun) (fun _ _ _ _ _ _ _ => nofun)).1
  | file t => exact same (flights_link c s (.file t) (fun _ => nofun) (fun _ _ _ _ _ _ _ => nofun)).1
  | note n => exact same (flights_link c s (.note n) (fun _ => nofun) (fun _ _ _ _ _ _ _ => nofun)).1
  | failEarly h k => exact same (flights_link c s (.failEarly h k) (fun _ => nofun) (fun _ _ _ _ _ _ _ => nofun)).1
  | close => exact same (flights_link c s .close (fun _ => nofun) (fun _ _ _ _ _ _ _ => nofun)).1
  | arrive h j => exact same (flights_link c s (.arrive h j) (fun _ => nofun) (fun _ _ _ _ _ _ _ => nofun)).1
  | lose h j => exact same (flights_link c s (.lose h j) (fun _ => nofun) (fun _ _ _ _ _ _ _ => nofun)).1
  | listen now a f n e d => exact same (flights_link c s (.listen now a f n e d) (fun _ => nofun) (fun _ _ _ _ _ _ _ => nofun)).1
  | event h j => exact same (flights_link c s (.event h j) (fun _ => nofun) (fun _ _ _ _ _ _ _ => nofun)).1
  | world op => exact same (flights_link c s (.world op) (fun _ => nofun) (fun _ _ _ _ _ _ _ => nofun)).1

theorem Spent.on {c : LinkCfg} {w w' : World D H} {key : Bytes} (h : Spent w key) (op : LinkOp D) (h1 : w'.link = w.link.step c op) (h2 : ∀ i ∈ w.ended, i ∈ w'.ended) : Spent w' key := by
  obtain ⟨i, fl, st, g1, g2, g3⟩ := h
  obtain ⟨fl', g4, g5, g6⟩ := flights_kept c w.link op g1
  exact ⟨i, fl', st, by rw [h1]; exact g4, g5.trans g2, g3.imp g6 (h2 i)⟩

theorem Spent.same {w w' : World D H} {key : Bytes} (h : Spent w key) (h1 : w'.link.flights = w.link.flights) (h2 : ∀ i ∈ w.ended, i ∈ w'.ended) : Spent w' key := by
  obtain ⟨i, fl, st, g1, g2, g3⟩ := h
  exact ⟨i, fl, st, by rw [h1]; exact g1, g2, g3.imp_right (h2 i)⟩

theorem spent_step (c : LinkCfg) (w : World D H) (op : Op D H) {key : Bytes} (h : Spent w key) : Spent (w.step c op) key := by
  cases op with
  | go i =>
    simp only [World.step, World.go]
    split
    · split
      · exact h.on (.send _) rfl (fun _ h => h)
      · exact h.same rfl (fun _ h => h)
    · exact h.same rfl (fun _ h => h)
  | deliver k =>
    simp only [World.step, World.deliver]
    split
    · split
      · exact h.same rfl (fun _ h => h)
      · exact h
    · exact h
  | wire op =>
    cases op with
    | send r => exact h
    | serve i now a f n e d => exact h
    | file t =>
      show Spent (w.file c t) key
      unfold World.file
      split
      · exact h.on (.file t) rfl (fun _ h => h)
      · exact h
    | start => exact h.on .start rfl (fun _ h => h)
    | note n => exact h.on (.note n) rfl (fun _ h => h)
    | begin k => exact h.on (.begin k) rfl (fun _ h => h)
    | failEarly hd k => exact h.on (.failEarly hd k) rfl (fun _ h => h)
    | close => exact h.on .close rfl (fun _ h => h)
    | arrive hd i => exact h.on (.arrive hd i) rfl (fun _ h => h)
    | lose hd i => exact h.on (.lose hd i) rfl (fun _ h => h)
    | listen now a f n e d => exact h.on (.listen now a f n e d) rfl (fun _ h => h)
    | event hd j => exact h.on (.event hd j) rfl (fun _ h => h)
    | world hop => exact h.on (c := c) (.world hop) rfl (fun _ h => h)
  | serve i now a env n e d =>
    simp only [World.step, World.serve]
    split
    · exact h
    · split
      · exact h.on (.serve i now a (handler env w.srv) n e d) rfl (fun _ h => h)
      · split
        · exact h.on (.serve i now a (handler env w.srv) n e d) rfl (fun _ h => h)
        · exact h.same rfl (fun _ h => List.mem_append_left _ h)
        · exact h
  | _ => exact h.same rfl (fun _ h => h)

/-! ### Dispatches and what was filed -/

theorem lt_length_snoc {α : Type} {l : List α} {a b : α} {p : Nat} (h : (l ++ [a])[p]? = some b) : p < l.length ∨ (p = l.length ∧ a = b) := by
  rcases Nat.lt_or_ge p l.length with hl | hl
  · exact .inl hl
  · have h1 := lt_of_get h
    simp only [List.length_append, List.length_singleton] at h1
    have hp : p = l.length := by omega
    subst hp
    simp at h
    exact .inr ⟨rfl, h⟩

/-- The requests filed include all that was dispatched, and the flights of these are spent. -/
theorem traced (c : LinkCfg) (s0 : Self D) (srv : Srv D H) (ops : List (Op D H)) (hc : Carried c (World.init s0 srv) ops)
    (few : ((World.init s0 srv).run c ops).slots.length < 2 ^ 32) :
    ∃ l, Inv c ((World.init s0 srv).run c ops) l ∧ ∀ p q env σ o, DispatchedAt c (World.init s0 srv) ops p q env σ o →
      (∃ m, (m, q) ∈ l) ∧ (o ≠ .blocked → Spent ((World.init s0 srv).run c ops) (keyText q.id)) := by
  induction ops using snoc_induction with
  | h0 => exact ⟨[], inv_init c s0 srv, fun p q env σ o ⟨_, _, _, _, _, _, _, _, _, h, _⟩ => (nomatch h)⟩
  | h1 ops op ih =>
    rw [run_snoc] at few ⊢
    have few' := Nat.lt_of_le_of_lt (slots_step c _ op) few
    obtain ⟨l, h, ht⟩ := ih hc.prefix few'
    obtain ⟨l', h', hl⟩ := inv_step hc h few'
    refine ⟨l', h', fun p q env σ o hd => ?_⟩
    have hd' := hd
    obtain ⟨i, now, a, n, e, d, out, tok, rest, g1, g2, g3, g4, g5⟩ := hd
    rcases lt_length_snoc g1 with hp | ⟨rfl, rfl⟩
    · obtain ⟨⟨m, hm⟩, hs⟩ := ht p q env σ o (hd'.less hp)
      exact ⟨⟨m, hl.subset hm⟩, fun hb => spent_step c _ op (hs hb)⟩
    · rw [List.take_left] at g2 g4
      obtain ⟨-, k, p, sent, hfl, hout⟩ := served_some g2
      have hof := handled_of hc.reasons (h.link hc.reasons few') h.filed hfl now a (handler env ((World.init s0 srv).run c ops).srv) n e d
      rw [← hout, g3] at hof
      rcases hof with h1 | ⟨⟨m, q'⟩, hx, tok', st, h1, hp⟩
      · cases h1
      · cases h1
        refine ⟨⟨m, hl.subset hx⟩, fun hb => ?_⟩
        subst g4
        have hw : ((World.init s0 srv).run c ops).step c (.serve i now a env n e d) = ((World.init s0 srv).run c ops).serve c i now a env n e d := rfl
        rw [hw]
        simp only [World.serve, g2, g3]
        split
        · obtain ⟨fl', k1, k2, -⟩ := flights_kept c ((World.init s0 srv).run c ops).link (.serve i now a (handler env ((World.init s0 srv).run c ops).srv) n e d) hfl
          refine ⟨i, fl', st, k1, k2.trans hp, .inl ?_⟩
          simp only [Link.step, Link.serve, hfl] at k1
          rw [List.getElem?_set_self (lt_of_get hfl)] at k1
          cases k1
          exact fun h => (nomatch h)
        · exact ⟨i, _, st, hfl, hp, .inr (by simp)⟩
        · rename_i hr
          exact absurd (g5.symm.trans hr) hb

theorem DispatchedAt.cut {c : LinkCfg} {w : World D H} {ops : List (Op D H)} {p n : Nat} {q : Request D} {env : Env D H} {srv : Srv D H} {o : Out D}
    (hp : p < n) : DispatchedAt c w (ops.take n) p q env srv o ↔ DispatchedAt c w ops p q env srv o := by
  have h1 : (ops.take n)[p]? = ops[p]? := List.getElem?_take_of_lt hp
  have h2 : (ops.take n).take p = ops.take p := by rw [List.take_take, Nat.min_eq_left (Nat.le_of_lt hp)]
  unfold DispatchedAt
  rw [h1, h2]

theorem Carried.take {c : LinkCfg} {w : World D H} {ops : List (Op D H)} (h : Carried c w ops) (n : Nat) : Carried c w (ops.take n) :=
  ⟨h.reasons, fun api ha => h.calls api (List.mem_of_mem_take ha), fun o ho => h.wires o (List.mem_of_mem_take ho),
    fun p q env σ r hd => h.answers p q env σ r (by
      have hp : p < n := by
        obtain ⟨_, _, _, _, _, _, _, _, _, h1, _⟩ := hd
        have := lt_of_get h1
        simp only [List.length_take] at this
        omega
      exact (DispatchedAt.cut hp).1 hd),
    fun u hu => h.mode u (List.mem_of_mem_take hu)⟩

theorem slots_run (c : LinkCfg) (w : World D H) (ops : List (Op D H)) : w.slots.length ≤ (w.run c ops).slots.length := by
  induction ops using snoc_induction with
  | h0 => exact Nat.le_refl _
  | h1 ops op ih => rw [run_snoc]; exact Nat.le_trans ih (slots_step c _ op)

theorem slots_take (c : LinkCfg) (w : World D H) (ops : List (Op D H)) (n : Nat) : (w.run c (ops.take n)).slots.length ≤ (w.run c ops).slots.length := by
  have : w.run c ops = (w.run c (ops.take n)).run c (ops.drop n) := by
    unfold World.run; rw [← List.foldl_append, List.take_append_drop]
  rw [this]
  exact slots_run c _ _

/-- No request is dispatched twice. -/
theorem dispatched_once (c : LinkCfg) (s0 : Self D) (srv : Srv D H) (ops : List (Op D H)) (hc : Carried c (World.init s0 srv) ops)
    (few : ((World.init s0 srv).run c ops).slots.length < 2 ^ 32) {p p' : Nat} {q q' : Request D} {env env' : Env D H} {σ σ' : Srv D H} {o o' : Out D}
    (h : DispatchedAt c (World.init s0 srv) ops p q env σ o) (hb : o ≠ .blocked) (h' : DispatchedAt c (World.init s0 srv) ops p' q' env' σ' o') (hb' : o' ≠ .blocked)
    (hk : keyText q.id = keyText q'.id) : p = p' := by
  have key : ∀ {p p' : Nat} {q q' : Request D} {env env' : Env D H} {σ σ' : Srv D H} {o o' : Out D},
      DispatchedAt c (World.init s0 srv) ops p q env σ o → o ≠ .blocked → DispatchedAt c (World.init s0 srv) ops p' q' env' σ' o' →
      keyText q.id = keyText q'.id → ¬ p < p' := by
    intro p p' q q' env env' σ σ' o o' h hb h' hk hlt
    have few' := Nat.lt_of_le_of_lt (slots_take c (World.init s0 srv) ops p') few
    have hc' := hc.take p'
    obtain ⟨l, hinv, ht⟩ := traced c s0 srv (ops.take p') hc' few'
    obtain ⟨j, fl, st, g1, g2, g3⟩ := (ht p q env σ o ((DispatchedAt.cut hlt).2 h)).2 hb
    obtain ⟨i, now, a, n, e, d, out, tok, rest, k1, k2, k3, k4, k5⟩ := h'
    obtain ⟨k6, k, pf, sent, hfl, hout⟩ := served_some k2
    have hof := handled_of hc.reasons (hinv.link hc.reasons few') hinv.filed hfl now a (handler env' ((World.init s0 srv).run c (ops.take p')).srv) n e d
    rw [← hout, k3] at hof
    rcases hof with h1 | ⟨⟨m, q''⟩, hx, tok', st', h1, hp⟩
    · cases h1
    · cases h1
      have hij : i = j := by
        have hn := (List.nodup_append.1 (hinv.link hc.reasons few').pool).2.1
        exact filterMap_inj (k := keyText q''.id) hn hfl g1 (by rw [hp]; rfl) (by rw [g2, hk]; rfl)
      subst hij
      rw [hfl] at g1
      cases g1
      rcases g3 with g3 | g3
      · exact g3 rfl
      · exact k6 g3
  rcases Nat.lt_trichotomy p p' with h1 | h1 | h1
  · exact absurd h1 (key h hb h' hk)
  · exact h1
  · exact absurd h1 (key h' hb' h hk.symm)

end Verif.Web
