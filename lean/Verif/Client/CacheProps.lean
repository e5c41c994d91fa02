import Verif.Client.Cache
import Verif.Server.ListingProps

/-! C38, C39, C40: the cache of the client's list calls. C79: the unpaged list calls against this library's server. -/

set_option linter.unusedSectionVars false

namespace Verif

open Client

variable {D : Type}

/-! ### Specification -/

/-- A list call made now returns `d` at once and sends nothing. -/
def FromCache (s : Cache D) (k : Kind) (d : List (Item D)) : Prop :=
  (s.step (.call k)).sent = s.sent ∧ (s.step (.call k)).calls = s.calls ++ [⟨k, .done (some d)⟩]

/-- The notification that announces a change of a listing. -/
def changedMethod : Kind → Bytes
  | .tools => lit "notifications/tools/list_changed"
  | .resources => lit "notifications/resources/list_changed"
  | .templates => lit "notifications/resources/list_changed"
  | .prompts => lit "notifications/prompts/list_changed"

/-- Operations after which nothing cached for `k` may be used: caching is switched off, or the listing has changed. -/
def Drops (k : Kind) : CacheOp D → Prop
  | .setTtl t => t = none ∨ t = some 0
  | .note _ _ n => n.method = changedMethod k
  | _ => False

/-- The ttl the user asked for last. -/
def ttlAsked : Option Nat → List (CacheOp D) → Option Nat
  | t, [] => t
  | _, .setTtl t :: ops => ttlAsked t ops
  | t, _ :: ops => ttlAsked t ops

/-- The time that passes, in nanoseconds. -/
def elapsed : List (CacheOp D) → Nat
  | [] => 0
  | .tick ns :: ops => ns + elapsed ops
  | _ :: ops => elapsed ops

/-- Call number `i` lists `k` and has read `d` from its reply, but has not returned. -/
def Holds (s : Cache D) (i : Nat) (k : Kind) (d : List (Item D)) : Prop := s.calls[i]? = some ⟨k, .fetched d⟩

/-- Some call of kind `k` goes on after its reply in this step. -/
def Refills (k : Kind) (s : Cache D) : CacheOp D → Prop
  | .store i => ∃ d, Holds s i k d
  | _ => False

/-- No step of `ops`, run from `s`, drops or replaces what is cached for `k`. -/
def Keeps (k : Kind) : Cache D → List (CacheOp D) → Prop
  | _, [] => True
  | s, op :: ops => ¬ Drops k op ∧ ¬ Refills k s op ∧ Keeps k (s.step op) ops

/-! ### Lemmas -/

theorem cache_run_append (s : Cache D) (a b : List (CacheOp D)) : s.run (a ++ b) = (s.run a).run b := by
  unfold Cache.run; rw [List.foldl_append]

theorem cache_run_cons (s : Cache D) (op : CacheOp D) (b : List (CacheOp D)) : s.run (op :: b) = (s.step op).run b := rfl

theorem fromCache_iff (s : Cache D) (k : Kind) (d : List (Item D)) : FromCache s k d ↔ s.hit k = some d := by
  unfold FromCache
  show (s.call k).sent = s.sent ∧ (s.call k).calls = s.calls ++ [⟨k, .done (some d)⟩] ↔ _
  unfold Cache.call
  cases h : s.hit k with
  | none => simp
  | some x => simp

theorem invalidates_iff (m : Bytes) (k : Kind) : invalidates m k = true ↔ m = changedMethod k := by
  have h1 : ¬ lit "notifications/tools/list_changed" = lit "notifications/resources/list_changed" := by decide
  have h2 : ¬ lit "notifications/tools/list_changed" = lit "notifications/prompts/list_changed" := by decide
  have h3 : ¬ lit "notifications/resources/list_changed" = lit "notifications/prompts/list_changed" := by decide
  unfold invalidates
  by_cases e1 : m = lit "notifications/tools/list_changed"
  · subst e1; rw [if_pos rfl]; cases k <;> simp [changedMethod, h1, h2]
  · rw [if_neg e1]
    by_cases e2 : m = lit "notifications/resources/list_changed"
    · subst e2; rw [if_pos rfl]; cases k <;> simp [changedMethod, h3, Ne.symm h1]
    · rw [if_neg e2]
      by_cases e3 : m = lit "notifications/prompts/list_changed"
      · subst e3; rw [if_pos rfl]; cases k <;> simp [changedMethod, Ne.symm h3, Ne.symm h2]
      · rw [if_neg e3]; cases k <;> simp [changedMethod, e1, e2, e3]

theorem changed_reaches (k : Kind) (p t : Bool) (n : Notification D) (h : n.method = changedMethod k) : reaches p t n = true := by
  have a1 : ∀ k, ¬ changedMethod k = lit "notifications/progress" := by intro k; cases k <;> decide
  have a2 : ∀ k, ¬ changedMethod k = lit "notifications/cancelled" := by intro k; cases k <;> decide
  have a3 : ∀ k, ¬ changedMethod k = lit "notifications/tasks/status" := by intro k; cases k <;> decide
  unfold reaches
  rw [h]
  simp [a1 k, a2 k, a3 k]

theorem enabled_iff (t : Option Nat) : enabled t = true ↔ ∃ n, t = some n ∧ 0 < n := by
  cases t with
  | none => simp [enabled]
  | some n => simp [enabled]

theorem enabled_false (t : Option Nat) : enabled t = false ↔ (t = none ∨ t = some 0) := by
  cases t with
  | none => simp [enabled]
  | some n => simp [enabled]

/-- The ttl in force is the one asked for, when that is positive. -/
theorem ttl_step (s : Cache D) (op : CacheOp D) (t : Option Nat) (h : s.ttl = if enabled t then t else none) :
    (s.step op).ttl = (if enabled (ttlAsked t [op]) then ttlAsked t [op] else none) := by
  cases op with
  | tick ns => exact h
  | setTtl x =>
    show (s.setTtl x).ttl = (if enabled x then x else none)
    unfold Cache.setTtl
    by_cases hx : enabled x = true
    · rw [if_pos hx, if_pos hx]
    · rw [if_neg hx, if_neg hx]
  | note p q n =>
    show (s.note p q n).ttl = _
    unfold Cache.note
    by_cases hx : reaches p q n = true
    · rw [if_pos hx]; exact h
    · rw [if_neg hx]; exact h
  | call k =>
    show (s.call k).ttl = _
    unfold Cache.call
    cases s.hit k <;> exact h
  | reply i o =>
    show (s.reply i o).ttl = _
    unfold Cache.reply
    split <;> exact h
  | store i =>
    show (s.store i).ttl = _
    unfold Cache.store
    split <;> exact h

theorem ttlAsked_cons (t : Option Nat) (op : CacheOp D) (ops : List (CacheOp D)) : ttlAsked t (op :: ops) = ttlAsked (ttlAsked t [op]) ops := by
  cases op <;> rfl

theorem ttl_run (ops : List (CacheOp D)) : ∀ (s : Cache D) (t : Option Nat), s.ttl = (if enabled t then t else none) →
    (s.run ops).ttl = (if enabled (ttlAsked t ops) then ttlAsked t ops else none) := by
  induction ops with
  | nil => intro s t h; exact h
  | cons op ops ih =>
    intro s t h
    rw [cache_run_cons, ttlAsked_cons]
    exact ih _ _ (ttl_step s op t h)

theorem ttl_init (strict : Bool) (ops : List (CacheOp D)) (n : Nat) :
    (((Cache.init strict).run ops).ttl = some n ∧ 0 < n) ↔ (ttlAsked none ops = some n ∧ 0 < n) := by
  have h := ttl_run ops (Cache.init strict) none rfl
  rw [h]
  by_cases e : enabled (ttlAsked none ops) = true
  · rw [if_pos e]
  · rw [if_neg e]
    constructor
    · intro ⟨a, _⟩; cases a
    · intro ⟨a, b⟩; exact absurd ((enabled_iff _).2 ⟨n, a, b⟩) e

theorem now_step (s : Cache D) (op : CacheOp D) : (s.step op).now = s.now + elapsed [op] := by
  cases op with
  | tick ns => rfl
  | setTtl x =>
    show (s.setTtl x).now = s.now
    unfold Cache.setTtl
    split <;> rfl
  | note p q n =>
    show (s.note p q n).now = s.now
    unfold Cache.note
    split <;> rfl
  | call k =>
    show (s.call k).now = s.now
    unfold Cache.call
    cases s.hit k <;> rfl
  | reply i o =>
    show (s.reply i o).now = s.now
    unfold Cache.reply
    split <;> rfl
  | store i =>
    show (s.store i).now = s.now
    unfold Cache.store
    split <;> rfl

theorem elapsed_cons (op : CacheOp D) (ops : List (CacheOp D)) : elapsed (op :: ops) = elapsed [op] + elapsed ops := by
  cases op <;> simp [elapsed]

theorem now_run (ops : List (CacheOp D)) : ∀ s : Cache D, (s.run ops).now = s.now + elapsed ops := by
  induction ops with
  | nil => intro s; rfl
  | cons op ops ih =>
    intro s
    rw [cache_run_cons, ih, now_step, elapsed_cons op ops]; omega

theorem strict_step (s : Cache D) (op : CacheOp D) : (s.step op).strict = s.strict := by
  cases op with
  | tick ns => rfl
  | setTtl x =>
    show (s.setTtl x).strict = s.strict
    unfold Cache.setTtl
    split <;> rfl
  | note p q n =>
    show (s.note p q n).strict = s.strict
    unfold Cache.note
    split <;> rfl
  | call k =>
    show (s.call k).strict = s.strict
    unfold Cache.call
    cases s.hit k <;> rfl
  | reply i o =>
    show (s.reply i o).strict = s.strict
    unfold Cache.reply
    split <;> rfl
  | store i =>
    show (s.store i).strict = s.strict
    unfold Cache.store
    split <;> rfl

theorem strict_run (ops : List (CacheOp D)) : ∀ s : Cache D, (s.run ops).strict = s.strict := by
  induction ops with
  | nil => intro s; rfl
  | cons op ops ih => intro s; rw [cache_run_cons, ih, strict_step]

/-! The slots. -/

theorem slot_drop (s : Cache D) (op : CacheOp D) (k : Kind) (h : Drops k op) : ((s.step op).slots k).set = false := by
  cases op with
  | setTtl x =>
    show ((s.setTtl x).slots k).set = false
    have hx : ¬ enabled x = true := by rw [(enabled_false x).2 h]; decide
    unfold Cache.setTtl
    rw [if_neg hx]; rfl
  | note p q n =>
    show ((s.note p q n).slots k).set = false
    unfold Cache.note
    rw [if_pos (changed_reaches k p q n h)]
    show (if invalidates n.method k then (s.slots k).clear else s.slots k).set = false
    rw [if_pos ((invalidates_iff _ _).2 h)]; rfl
  | tick ns => exact h.elim
  | call k => exact h.elim
  | reply i o => exact h.elim
  | store i => exact h.elim

theorem slot_keep (s : Cache D) (op : CacheOp D) (k : Kind) (h : ¬ Drops k op) (hr : ¬ Refills k s op) : (s.step op).slots k = s.slots k := by
  cases op with
  | tick ns => rfl
  | setTtl x =>
    show (s.setTtl x).slots k = s.slots k
    unfold Cache.setTtl
    by_cases hx : enabled x = true
    · rw [if_pos hx]
    · exact absurd ((enabled_false x).1 (by simpa using hx)) h
  | note p q n =>
    show (s.note p q n).slots k = s.slots k
    unfold Cache.note
    split
    · show (if invalidates n.method k then (s.slots k).clear else s.slots k) = _
      rw [if_neg (fun e => h ((invalidates_iff _ _).1 e))]
    · rfl
  | call j =>
    show (s.call j).slots k = _
    unfold Cache.call
    cases s.hit j <;> rfl
  | reply i o =>
    show (s.reply i o).slots k = _
    unfold Cache.reply
    split <;> rfl
  | store i =>
    show (s.store i).slots k = _
    unfold Cache.store
    split
    · rename_i j items hc
      show s.stored j items k = _
      unfold Cache.stored
      split
      · show (if k = j then _ else s.slots k) = _
        rw [if_neg]
        intro e; subst e
        exact hr ⟨items, hc⟩
      · rfl
    · rfl

theorem slot_refill (s : Cache D) (i : Nat) (k : Kind) (d : List (Item D)) (h : Holds s i k d) :
    (s.step (.store i)).slots k = if enabled s.ttl then ⟨d, s.now, true⟩ else s.slots k := by
  show (s.store i).slots k = _
  unfold Cache.store
  rw [h]
  show s.stored k d k = _
  unfold Cache.stored
  split
  · simp
  · rfl

/-- While caching is off nothing is set. -/
def OffClear (s : Cache D) : Prop := enabled s.ttl = false → ∀ k, (s.slots k).set = false

theorem offClear_other {P : Prop} (s : Cache D) (op : CacheOp D) (e : enabled s.ttl = true) (he : enabled (s.step op).ttl = false)
    (ho : ttlAsked s.ttl [op] = s.ttl) : P := by
  exfalso
  have h := ttl_step s op s.ttl (by rw [if_pos e])
  rw [ho, if_pos e] at h
  rw [h, e] at he; cases he

theorem offClear_step (s : Cache D) (op : CacheOp D) (h : OffClear s) : OffClear (s.step op) := by
  intro he k
  by_cases hd : Drops k op
  · exact slot_drop s op k hd
  · by_cases hr : Refills k s op
    · cases op with
      | store i =>
        obtain ⟨d, hd'⟩ := hr
        have e : (s.step (.store i)).ttl = s.ttl := by
          show (s.store i).ttl = s.ttl
          unfold Cache.store; split <;> rfl
        rw [e] at he
        rw [slot_refill s i k d hd', if_neg (by rw [he]; decide)]
        exact h he k
      | _ => exact hr.elim
    · rw [slot_keep s op k hd hr]
      by_cases e : enabled s.ttl = true
      · cases op with
        | setTtl x =>
          exfalso; apply hd
          apply (enabled_false x).1
          have : (s.step (.setTtl x)).ttl = if enabled x then x else none := by
            show (s.setTtl x).ttl = _
            unfold Cache.setTtl; split <;> rfl
          rw [this] at he
          by_cases hx : enabled x = true
          · rw [if_pos hx, hx] at he; cases he
          · simpa using hx
        | tick ns => exact offClear_other s _ e he rfl
        | note p q n => exact offClear_other s _ e he rfl
        | call j => exact offClear_other s _ e he rfl
        | reply i o => exact offClear_other s _ e he rfl
        | store i => exact offClear_other s _ e he rfl
      · exact h (by simpa using e) k

theorem offClear_run (ops : List (CacheOp D)) : ∀ s : Cache D, OffClear s → OffClear (s.run ops) := by
  induction ops with
  | nil => intro s h; exact h
  | cons op ops ih => intro s h; exact ih _ (offClear_step s op h)

/-- What a slot holds, in terms of the operations. -/
theorem slot_run (k : Kind) (d : List (Item D)) (ts : Nat) (ops : List (CacheOp D)) : ∀ s : Cache D, OffClear s →
    ((s.run ops).slots k = ⟨d, ts, true⟩ ↔
      (s.slots k = ⟨d, ts, true⟩ ∧ Keeps k s ops) ∨
      ∃ pre i post, ops = pre ++ .store i :: post ∧ Holds (s.run pre) i k d ∧ enabled (s.run pre).ttl = true ∧ (s.run pre).now = ts ∧
        Keeps k (s.run (pre ++ [.store i])) post) := by
  induction ops with
  | nil =>
    intro s _
    constructor
    · intro h; exact Or.inl ⟨h, trivial⟩
    · rintro (⟨h, _⟩ | ⟨pre, i, post, e, _⟩)
      · exact h
      · cases pre <;> cases e
  | cons op ops ih =>
    intro s hoff
    rw [cache_run_cons, ih (s.step op) (offClear_step s op hoff)]
    have tail : (∃ pre i post, ops = pre ++ .store i :: post ∧ Holds ((s.step op).run pre) i k d ∧ enabled ((s.step op).run pre).ttl = true ∧
        ((s.step op).run pre).now = ts ∧ Keeps k ((s.step op).run (pre ++ [.store i])) post) →
        ∃ pre i post, op :: ops = pre ++ .store i :: post ∧ Holds (s.run pre) i k d ∧ enabled (s.run pre).ttl = true ∧ (s.run pre).now = ts ∧
        Keeps k (s.run (pre ++ [.store i])) post := by
      rintro ⟨pre, i, post, e, h1, h2, h3, h4⟩
      exact ⟨op :: pre, i, post, by rw [e]; rfl, h1, h2, h3, h4⟩
    constructor
    · rintro (⟨h1, h2⟩ | h)
      · by_cases hd : Drops k op
        · have := slot_drop s op k hd
          rw [h1] at this; cases this
        · by_cases hr : Refills k s op
          · cases op with
            | store i =>
              obtain ⟨d', hd'⟩ := hr
              have e := slot_refill s i k d' hd'
              rw [h1] at e
              by_cases en : enabled s.ttl = true
              · rw [if_pos en] at e
                injection e with e1 e2 _
                subst e1 e2
                exact Or.inr ⟨[], i, ops, rfl, hd', en, rfl, h2⟩
              · rw [if_neg en] at e
                have := hoff (by simpa using en) k
                rw [← e] at this; cases this
            | _ => exact hr.elim
          · rw [slot_keep s op k hd hr] at h1
            exact Or.inl ⟨h1, hd, hr, h2⟩
      · exact Or.inr (tail h)
    · rintro (⟨h1, hd, hr, h2⟩ | ⟨pre, i, post, e, h1, h2, h3, h4⟩)
      · exact Or.inl ⟨by rw [slot_keep s op k hd hr]; exact h1, h2⟩
      · cases pre with
        | nil =>
          injection e with e1 e2
          subst e1 e2
          refine Or.inl ⟨?_, h4⟩
          have h2' : enabled s.ttl = true := h2
          have h3' : s.now = ts := h3
          rw [slot_refill s i k d h1, if_pos h2', h3']
        | cons p pre =>
          injection e with e1 e2
          subst e1
          exact Or.inr ⟨pre, i, post, e2, h1, h2, h3, h4⟩

theorem fresh_iff (now ts t : Nat) (h64 : t < 2 ^ 64) : fresh now ts (some t) = true ↔ t < 2 ^ 63 ∧ now - ts < (t + 1) * 1000000 := by
  have h63 : (2 : Nat) ^ 63 = 9223372036854775808 := by decide
  have h64' : (2 : Nat) ^ 64 = 18446744073709551616 := by decide
  have i64 : (2 : Int) ^ 64 = 18446744073709551616 := by decide
  unfold fresh toI64
  show decide (_ ≤ if t < 2 ^ 63 then (t : Int) else (t : Int) - 2 ^ 64) = true ↔ _
  rw [h63]; rw [h64'] at h64
  by_cases e : t < 9223372036854775808
  · rw [if_pos e]
    simp only [decide_eq_true_eq]
    constructor
    · intro h; refine ⟨e, ?_⟩; omega
    · intro ⟨_, h⟩; omega
  · rw [if_neg e, i64]
    simp only [decide_eq_true_eq]
    constructor
    · intro h; exfalso; omega
    · intro ⟨h, _⟩; exact absurd h e

theorem hit_iff (s : Cache D) (k : Kind) (d : List (Item D)) :
    s.hit k = some d ↔ ∃ t, (s.ttl = some t ∧ 0 < t) ∧ ∃ ts, s.slots k = ⟨d, ts, true⟩ ∧ fresh s.now ts (some t) = true := by
  unfold Cache.hit
  constructor
  · intro h
    by_cases e : (enabled s.ttl && (s.slots k).set && fresh s.now (s.slots k).ts s.ttl) = true
    · rw [if_pos e] at h
      injection h with h
      simp only [Bool.and_eq_true] at e
      obtain ⟨⟨e1, e2⟩, e3⟩ := e
      obtain ⟨t, ht, hp⟩ := (enabled_iff _).1 e1
      refine ⟨t, ⟨ht, hp⟩, (s.slots k).ts, ?_, by rw [← ht]; exact e3⟩
      cases hs : s.slots k with
      | mk a b c =>
        rw [hs] at h e2
        have h' : a = d := h
        have e2' : c = true := e2
        rw [h', e2']
    · rw [if_neg e] at h; cases h
  · rintro ⟨t, ⟨ht, hp⟩, ts, hs, hf⟩
    rw [hs, ht]
    have : enabled (some t) = true := (enabled_iff _).2 ⟨t, rfl, hp⟩
    simp [this, hf]

theorem offClear_init (strict : Bool) : OffClear (Cache.init strict : Cache D) := fun _ _ => rfl

/-- A reply with two tools. -/
def twoTools : Outcome Empty :=
  .resp ⟨.int 1, some (.obj [(lit "tools", .arr [.obj [(lit "name", .str (lit "a"))], .obj [(lit "name", .str (lit "b"))]])]), none⟩

/-- Caching for 5 ms, a call and its reply. -/
def toolCall : List (CacheOp Empty) := [.setTtl (some 5), .call .tools, .reply 0 twoTools]

/-- What the call returns. -/
def toolItems : List (Item Empty) :=
  [.tool (Items.readTool [(lit "name", .str (lit "a"))]), .tool (Items.readTool [(lit "name", .str (lit "b"))])]

/-! ### C38 -/

/-- A list call is answered from the cache exactly when the ttl the user asked for last is positive, some earlier list call of the same
kind stored the answer while a positive ttl was in force, less than ttl and one millisecond ago, and since then nobody switched caching
off, no change of the listing was announced and no other list call of that kind has returned. The answer is what that call returned.
(A ttl of 2^63 ms or more never gives a hit.) -/
theorem C38_hit_iff (strict : Bool) (ops : List (CacheOp D)) (k : Kind) (d : List (Item D)) (h64 : ∀ t, ttlAsked none ops = some t → t < 2 ^ 64) :
    FromCache ((Cache.init strict).run ops) k d ↔
      ∃ t, ttlAsked none ops = some t ∧ 0 < t ∧ t < 2 ^ 63 ∧
        ∃ pre i post, ops = pre ++ .store i :: post ∧ Holds ((Cache.init strict).run pre) i k d ∧
          (∃ u, ttlAsked none pre = some u ∧ 0 < u) ∧
          Keeps k ((Cache.init strict).run (pre ++ [.store i])) post ∧ elapsed post < (t + 1) * 1000000 := by
  rw [fromCache_iff, hit_iff]
  have age : ∀ (pre post : List (CacheOp D)) (i : Nat) , ops = pre ++ .store i :: post →
      ((Cache.init strict).run ops).now - ((Cache.init strict : Cache D).run pre).now = elapsed post := by
    intro pre post i e
    rw [e, cache_run_append, now_run]
    show _ + elapsed post - _ = _
    omega
  constructor
  · rintro ⟨t, ht, ts, hs, hf⟩
    obtain ⟨ha, hp⟩ := (ttl_init strict ops t).1 ht
    obtain ⟨hlt, hag⟩ := (fresh_iff _ _ _ (h64 t ha)).1 hf
    refine ⟨t, ha, hp, hlt, ?_⟩
    rcases (slot_run k d ts ops _ (offClear_init strict)).1 hs with ⟨h, _⟩ | ⟨pre, i, post, e, h1, h2, h3, h4⟩
    · have : (⟨[], 0, false⟩ : Slot D) = ⟨d, ts, true⟩ := h
      injection this with _ _ h'; cases h'
    · obtain ⟨u, hu⟩ := (enabled_iff _).1 h2
      refine ⟨pre, i, post, e, h1, ⟨u, (ttl_init strict pre u).1 hu⟩, h4, ?_⟩
      rw [← age pre post i e, h3]; exact hag
  · rintro ⟨t, ha, hp, hlt, pre, i, post, e, h1, ⟨u, hu⟩, h4, hag⟩
    refine ⟨t, (ttl_init strict ops t).2 ⟨ha, hp⟩, ((Cache.init strict).run pre).now, ?_, ?_⟩
    · exact (slot_run k d _ ops _ (offClear_init strict)).2
        (Or.inr ⟨pre, i, post, e, h1, (enabled_iff _).2 ⟨u, (ttl_init strict pre u).2 hu⟩, rfl, h4⟩)
    · exact (fresh_iff _ _ _ (h64 t ha)).2 ⟨hlt, by rw [age pre post i e]; exact hag⟩

/-- Nearly 6 ms after the store and after an unrelated notification and a list call of another kind, the listing is still returned. -/
example : FromCache ((Cache.init true).run (toolCall ++ .store 0 :: [.tick 5999999, .note false false ⟨changedMethod .prompts, none⟩,
    .call .prompts, .reply 1 .nul, .store 1])) .tools toolItems :=
  ⟨rfl, rfl⟩

example : ∀ d, ¬ FromCache ((Cache.init true).run (toolCall ++ .store 0 :: [.tick 6000000])) .tools d :=
  fun d h => by rw [fromCache_iff] at h; cases h

/-- A list call that is not answered from the cache sends one request of its kind and waits. -/
theorem C38_miss (s : Cache D) (k : Kind) (h : ∀ d, ¬ FromCache s k d) :
    (s.step (.call k)).sent = s.sent ++ [k] ∧ (s.step (.call k)).calls[s.calls.length]? = some ⟨k, .waiting⟩ := by
  have hn : s.hit k = none := by
    cases e : s.hit k with
    | none => rfl
    | some d => exact absurd ((fromCache_iff s k d).2 e) (h d)
  show (s.call k).sent = _ ∧ (s.call k).calls[s.calls.length]? = _
  unfold Cache.call
  rw [hn]
  simp

example : ∀ d, ¬ FromCache ((Cache.init false).run (toolCall ++ [.store 0])) .prompts d :=
  fun d h => by rw [fromCache_iff] at h; cases h

theorem call_step_other (s : Cache D) (op : CacheOp D) (i : Nat) (c : Call D) (h : s.calls[i]? = some c) :
    (s.step op).calls[i]? = some c ∨
      (∃ o, op = .reply i o ∧ c.stage = .waiting ∧ (s.step op).calls[i]? = some ⟨c.kind, afterReply s.strict c.kind o⟩) ∨
      (∃ d, op = .store i ∧ c.stage = .fetched d ∧ (s.step op).calls[i]? = some ⟨c.kind, .done (some d)⟩) := by
  have hlen : i < s.calls.length := by
    rw [List.getElem?_eq_some_iff] at h; exact h.1
  cases op with
  | tick ns => exact Or.inl h
  | setTtl x =>
    refine Or.inl ?_
    show (s.setTtl x).calls[i]? = _
    unfold Cache.setTtl; split <;> exact h
  | note p q n =>
    refine Or.inl ?_
    show (s.note p q n).calls[i]? = _
    unfold Cache.note; split <;> exact h
  | call k =>
    refine Or.inl ?_
    show (s.call k).calls[i]? = _
    unfold Cache.call
    cases s.hit k with
    | none => show (s.calls ++ [_])[i]? = _; rw [List.getElem?_append_left hlen]; exact h
    | some x => show (s.calls ++ [_])[i]? = _; rw [List.getElem?_append_left hlen]; exact h
  | reply j o =>
    by_cases e : j = i
    · subst e
      obtain ⟨k, st⟩ := c
      cases st with
      | waiting =>
        refine Or.inr (Or.inl ⟨o, rfl, rfl, ?_⟩)
        show (s.reply j o).calls[j]? = _
        unfold Cache.reply; rw [h]
        show (s.calls.set j _)[j]? = _
        rw [List.getElem?_set_self hlen]
      | fetched d =>
        refine Or.inl ?_
        show (s.reply j o).calls[j]? = _
        unfold Cache.reply; rw [h]; exact h
      | done r =>
        refine Or.inl ?_
        show (s.reply j o).calls[j]? = _
        unfold Cache.reply; rw [h]; exact h
    · refine Or.inl ?_
      show (s.reply j o).calls[i]? = _
      unfold Cache.reply
      split
      · show (s.calls.set j _)[i]? = _
        rw [List.getElem?_set_ne e]; exact h
      · exact h
  | store j =>
    by_cases e : j = i
    · subst e
      obtain ⟨k, st⟩ := c
      cases st with
      | fetched d =>
        refine Or.inr (Or.inr ⟨d, rfl, rfl, ?_⟩)
        show (s.store j).calls[j]? = _
        unfold Cache.store; rw [h]
        show (s.calls.set j _)[j]? = _
        rw [List.getElem?_set_self hlen]
      | waiting =>
        refine Or.inl ?_
        show (s.store j).calls[j]? = _
        unfold Cache.store; rw [h]; exact h
      | done r =>
        refine Or.inl ?_
        show (s.store j).calls[j]? = _
        unfold Cache.store; rw [h]; exact h
    · refine Or.inl ?_
      show (s.store j).calls[i]? = _
      unfold Cache.store
      split
      · show (s.calls.set j _)[i]? = _
        rw [List.getElem?_set_ne e]; exact h
      · exact h

theorem done_stays (ops : List (CacheOp D)) : ∀ (s : Cache D) (i : Nat) (k : Kind) (r : Option (List (Item D))), s.calls[i]? = some ⟨k, .done r⟩ →
    (s.run ops).calls[i]? = some ⟨k, .done r⟩ := by
  induction ops with
  | nil => intro s i k r h; exact h
  | cons op ops ih =>
    intro s i k r h
    rw [cache_run_cons]
    rcases call_step_other s op i _ h with h' | ⟨o, _, e, _⟩ | ⟨d, _, e, _⟩
    · exact ih _ i k r h'
    · cases e
    · cases e

theorem fetched_stays (ops : List (CacheOp D)) : ∀ (s : Cache D) (i : Nat) (k : Kind) (d : List (Item D)), s.calls[i]? = some ⟨k, .fetched d⟩ →
    (s.run ops).calls[i]? = some ⟨k, .fetched d⟩ ∨ (s.run ops).calls[i]? = some ⟨k, .done (some d)⟩ := by
  induction ops with
  | nil => intro s i k r h; exact Or.inl h
  | cons op ops ih =>
    intro s i k d h
    rw [cache_run_cons]
    rcases call_step_other s op i _ h with h' | ⟨o, _, e, _⟩ | ⟨d', _, e, h'⟩
    · exact ih _ i k d h'
    · cases e
    · injection e with e; subst e
      exact Or.inr (done_stays ops _ i k _ h')

/-- A call that waits for a reply returns what its own reply says, whatever other calls, notifications and changes of the ttl there are:
the listing if the reply can be read, the exception otherwise. -/
theorem C38_own_reply (s : Cache D) (i : Nat) (k : Kind) (o : Outcome D) (ops : List (CacheOp D)) (r : Option (List (Item D)))
    (hw : s.calls[i]? = some ⟨k, .waiting⟩) (hd : (s.run (.reply i o :: ops)).calls[i]? = some ⟨k, .done r⟩) :
    r = k.listing s.strict o := by
  rw [cache_run_cons] at hd
  have h1 : (s.step (.reply i o)).calls[i]? = some ⟨k, afterReply s.strict k o⟩ := by
    rcases call_step_other s (.reply i o) i _ hw with h | ⟨o', e, _, h⟩ | ⟨d, e, _, _⟩
    · have hlen : i < s.calls.length := by
        rw [List.getElem?_eq_some_iff] at hw; exact hw.1
      show (s.reply i o).calls[i]? = _
      unfold Cache.reply
      rw [hw]
      show (s.calls.set i _)[i]? = _
      rw [List.getElem?_set_self hlen]
    · injection e with _ e; subst e; exact h
    · cases e
  unfold afterReply at h1
  cases hl : k.listing s.strict o with
  | none =>
    rw [hl] at h1
    have := done_stays ops _ i k _ h1
    rw [this] at hd
    injection hd with hd; injection hd with _ hd; injection hd with hd; exact hd.symm
  | some d =>
    rw [hl] at h1
    rcases fetched_stays ops _ i k _ h1 with h | h
    · rw [h] at hd; injection hd with hd; injection hd with _ hd; cases hd
    · rw [h] at hd
      injection hd with hd; injection hd with _ hd; injection hd with hd; exact hd.symm

example : ((Cache.init true).run [.call .tools, .call .tools] : Cache Empty).calls[1]? = some ⟨.tools, .waiting⟩ ∧
    (((Cache.init true).run [.call .tools, .call .tools]).run [.reply 1 twoTools, .setTtl (some 9), .reply 0 .nul, .store 0, .store 1]).calls[1]? =
      some ⟨.tools, .done (some toolItems)⟩ :=
  ⟨rfl, rfl⟩

/-! ### C39 -/

/-- What a call has read came with a reply to it. -/
theorem holds_origin (k : Kind) (d : List (Item D)) (i : Nat) (ops : List (CacheOp D)) : ∀ s : Cache D, Holds (s.run ops) i k d →
    Holds s i k d ∨ ∃ p o q, ops = p ++ .reply i o :: q ∧ (s.run p).calls[i]? = some ⟨k, .waiting⟩ ∧ k.listing s.strict o = some d := by
  induction ops with
  | nil => intro s h; exact Or.inl h
  | cons op ops ih =>
    intro s h
    rw [cache_run_cons] at h
    rcases ih _ h with h1 | ⟨p, o, q, e, h1, h2⟩
    · cases hc : s.calls[i]? with
      | none =>
        exfalso
        have hl : s.calls.length ≤ i := by
          apply Decidable.byContradiction; intro hn
          rw [List.getElem?_eq_getElem (by omega)] at hc; cases hc
        have h1' : (s.step op).calls[i]? = some ⟨k, .fetched d⟩ := h1
        have same : ∀ j : Nat, (s.step op).calls[i]? = none ∨ ∃ k' r, (s.step op).calls[i]? = some ⟨k', r⟩ ∧ ∀ d, r ≠ .fetched d := by
          intro _
          cases op with
          | tick ns => exact Or.inl hc
          | setTtl x =>
            refine Or.inl ?_
            show (s.setTtl x).calls[i]? = _
            unfold Cache.setTtl; split <;> exact hc
          | note p q n =>
            refine Or.inl ?_
            show (s.note p q n).calls[i]? = _
            unfold Cache.note; split <;> exact hc
          | call j =>
            show (s.call j).calls[i]? = none ∨ ∃ k' r, (s.call j).calls[i]? = some ⟨k', r⟩ ∧ _
            unfold Cache.call
            cases s.hit j with
            | none =>
              show (s.calls ++ [_])[i]? = none ∨ ∃ k' r, (s.calls ++ [_])[i]? = some ⟨k', r⟩ ∧ _
              by_cases e : i = s.calls.length
              · subst e; exact Or.inr ⟨j, .waiting, by simp, fun d e => by cases e⟩
              · refine Or.inl ?_
                rw [List.getElem?_eq_none_iff]; simp; omega
            | some x =>
              show (s.calls ++ [_])[i]? = none ∨ ∃ k' r, (s.calls ++ [_])[i]? = some ⟨k', r⟩ ∧ _
              by_cases e : i = s.calls.length
              · subst e; exact Or.inr ⟨j, .done (some x), by simp, fun d e => by cases e⟩
              · refine Or.inl ?_
                rw [List.getElem?_eq_none_iff]; simp; omega
          | reply j o =>
            refine Or.inl ?_
            show (s.reply j o).calls[i]? = _
            unfold Cache.reply
            split
            · show (s.calls.set j _)[i]? = _
              rw [List.getElem?_eq_none_iff]; simp; exact hl
            · exact hc
          | store j =>
            refine Or.inl ?_
            show (s.store j).calls[i]? = _
            unfold Cache.store
            split
            · show (s.calls.set j _)[i]? = _
              rw [List.getElem?_eq_none_iff]; simp; exact hl
            · exact hc
        rcases same 0 with e | ⟨k', r, e, hr⟩
        · rw [e] at h1'; cases h1'
        · rw [e] at h1'; injection h1' with h1'; injection h1' with _ h1'; exact hr d h1'
      | some c =>
        rcases call_step_other s op i c hc with h' | ⟨o, e, hw, h'⟩ | ⟨d', e, hf, h'⟩
        · refine Or.inl ?_
          unfold Holds at h1 ⊢
          rw [h'] at h1; rw [hc]; exact h1
        · unfold Holds at h1
          rw [h'] at h1
          injection h1 with h1; injection h1 with hk hs
          right
          refine ⟨[], o, ops, by rw [e]; rfl, ?_, ?_⟩
          · show s.calls[i]? = _
            rw [hc]; obtain ⟨ck, cs⟩ := c
            have hk' : ck = k := hk
            have hw' : cs = .waiting := hw
            rw [hk', hw']
          · rw [hk] at hs
            unfold afterReply at hs
            cases hl : k.listing s.strict o with
            | none => rw [hl] at hs; cases hs
            | some x => rw [hl] at hs; injection hs with hs; rw [hs]
        · unfold Holds at h1
          rw [h'] at h1
          injection h1 with h1; injection h1 with _ hs; cases hs
    · right
      exact ⟨op :: p, o, q, by rw [e]; rfl, h1, by rw [strict_step] at h2; exact h2⟩

theorem keeps_append (k : Kind) (a b : List (CacheOp D)) : ∀ s : Cache D, Keeps k s (a ++ b) → Keeps k (s.run a) b := by
  induction a with
  | nil => intro s h; exact h
  | cons op a ih => intro s h; exact ih _ h.2.2

/-- Where a list that ends with `b` is cut. -/
theorem split_cases {α : Type} : ∀ (a c : List α) (x y : α) (b d : List α), a ++ x :: b = c ++ y :: d →
    (∃ e, c = a ++ x :: e ∧ b = e ++ y :: d) ∨ (a = c ∧ x = y ∧ b = d) ∨ ∃ e, a = c ++ y :: e ∧ d = e ++ x :: b := by
  intro a
  induction a with
  | nil =>
    intro c x y b d h
    cases c with
    | nil => injection h with h1 h2; exact Or.inr (Or.inl ⟨rfl, h1, h2⟩)
    | cons z c => injection h with h1 h2; subst h1; exact Or.inl ⟨c, rfl, h2⟩
  | cons w a ih =>
    intro c x y b d h
    cases c with
    | nil => injection h with h1 h2; subst h1; exact Or.inr (Or.inr ⟨a, rfl, h2.symm⟩)
    | cons z c =>
      injection h with h1 h2
      subst h1
      rcases ih c x y b d h2 with ⟨e, e1, e2⟩ | ⟨e1, e2, e3⟩ | ⟨e, e1, e2⟩
      · exact Or.inl ⟨e, by rw [e1]; rfl, e2⟩
      · exact Or.inr (Or.inl ⟨by rw [e1], e2, e3⟩)
      · exact Or.inr (Or.inr ⟨e, by rw [e1]; rfl, e2⟩)

/-- After a change of the listing has been announced, an answer from the cache was stored afterwards; and its reply arrived afterwards
too, unless the call that stored it had its reply before the announcement and had not gone on. -/
theorem C39_stored_after (strict : Bool) (pre post : List (CacheOp D)) (p t : Bool) (n : Notification D) (k : Kind) (d : List (Item D))
    (hn : n.method = changedMethod k)
    (h : FromCache ((Cache.init strict).run (pre ++ .note p t n :: post)) k d) :
    ∃ i a b, post = a ++ .store i :: b ∧
      (Holds ((Cache.init strict).run pre) i k d ∨
        ∃ u o v, a = u ++ .reply i o :: v ∧ ((Cache.init strict).run (pre ++ .note p t n :: u)).calls[i]? = some ⟨k, .waiting⟩ ∧
          k.listing strict o = some d) := by
  rw [fromCache_iff, hit_iff] at h
  obtain ⟨ttl, _, ts, hs, _⟩ := h
  rcases (slot_run k d ts _ _ (offClear_init strict)).1 hs with ⟨h, _⟩ | ⟨pre', i, post', e, h1, _, _, h4⟩
  · have : (⟨[], 0, false⟩ : Slot D) = ⟨d, ts, true⟩ := h
    injection this with _ _ h'; cases h'
  · rcases split_cases _ _ _ _ _ _ e with ⟨x, e1, e2⟩ | ⟨_, e2, _⟩ | ⟨x, e1, e2⟩
    · refine ⟨i, x, post', e2, ?_⟩
      rw [e1, cache_run_append, cache_run_cons] at h1
      rcases holds_origin k d i x _ h1 with h | ⟨u, o, v, e3, h5, h6⟩
      · left
        unfold Holds at h ⊢
        have : (((Cache.init strict).run pre).step (.note p t n)).calls = ((Cache.init strict).run pre).calls := by
          show (Cache.note _ p t n).calls = _
          unfold Cache.note; split <;> rfl
        rw [this] at h; exact h
      · right
        refine ⟨u, o, v, e3, by rw [cache_run_append, cache_run_cons]; exact h5, ?_⟩
        rw [strict_step, strict_run] at h6; exact h6
    · cases e2
    · exfalso
      rw [e2] at h4
      have := keeps_append k x _ _ h4
      exact this.1 hn

/-- The listing changes while a call waits. -/
example : FromCache ((Cache.init true).run ([.setTtl (some 5), .call .tools] ++ .note false false ⟨changedMethod .tools, none⟩ ::
    [.reply 0 twoTools, .store 0])) .tools toolItems :=
  ⟨rfl, rfl⟩

/-- When the listing changes while no list call of that kind stands between its reply and the store, later calls are answered from
the cache only with what a reply brought after the announcement. -/
theorem C39_invalidated_partial (strict : Bool) (pre post : List (CacheOp D)) (p t : Bool) (n : Notification D) (k : Kind) (d : List (Item D))
    (hn : n.method = changedMethod k)
    (hq : ∀ i d, ¬ Holds ((Cache.init strict).run pre) i k d)
    (h : FromCache ((Cache.init strict).run (pre ++ .note p t n :: post)) k d) :
    ∃ i u o v, post = u ++ .reply i o :: v ∧ ((Cache.init strict).run (pre ++ .note p t n :: u)).calls[i]? = some ⟨k, .waiting⟩ ∧
      k.listing strict o = some d := by
  obtain ⟨i, a, b, e, h1 | ⟨u, o, v, e2, h2, h3⟩⟩ := C39_stored_after strict pre post p t n k d hn h
  · exact absurd h1 (hq i d)
  · exact ⟨i, u, o, v ++ .store i :: b, by rw [e, e2]; simp, h2, h3⟩

example : (∀ i d, ¬ Holds ((Cache.init true).run [.setTtl (some 5), .call .tools] : Cache Empty) i .tools d) ∧
    FromCache ((Cache.init true).run ([.setTtl (some 5), .call .tools] ++ .note false false ⟨changedMethod .tools, none⟩ ::
      [.reply 0 twoTools, .store 0])) .tools toolItems := by
  refine ⟨fun i d h => ?_, rfl, rfl⟩
  have e : ((Cache.init true).run [.setTtl (some 5), .call .tools] : Cache Empty).calls = [⟨.tools, .waiting⟩] := rfl
  unfold Holds at h
  rw [e] at h
  cases i with
  | zero => cases h
  | succ i => cases h

theorem first_holds (strict : Bool) (k : Kind) (t : Nat) (hp : 0 < t) (o : Outcome D) (d : List (Item D)) (ho : k.listing strict o = some d) :
    ((Cache.init strict : Cache D).run [.setTtl (some t), .call k, .reply 0 o]).calls = [⟨k, .fetched d⟩] := by
  have e1 : ((Cache.init strict : Cache D).run [.setTtl (some t)]) = { (Cache.init strict : Cache D) with ttl := some t } := by
    show Cache.setTtl _ _ = _
    unfold Cache.setTtl
    rw [if_pos ((enabled_iff _).2 ⟨t, rfl, hp⟩)]
  have e2 : ((Cache.init strict : Cache D).run [.setTtl (some t), .call k]).calls = [⟨k, .waiting⟩] := by
    show (((Cache.init strict : Cache D).run [.setTtl (some t)]).call k).calls = _
    rw [e1]
    have : ({ (Cache.init strict : Cache D) with ttl := some t }).hit k = none := by
      unfold Cache.hit
      have : (({ (Cache.init strict : Cache D) with ttl := some t }).slots k).set = false := rfl
      rw [this]; simp
    unfold Cache.call; rw [this]; rfl
  show (((Cache.init strict : Cache D).run [.setTtl (some t), .call k]).reply 0 o).calls = _
  have hst : ((Cache.init strict : Cache D).run [.setTtl (some t), .call k]).strict = strict := by rw [strict_run]; rfl
  unfold Cache.reply
  rw [e2]
  show [(⟨k, afterReply _ k o⟩ : Call D)] = _
  rw [hst]; unfold afterReply; rw [ho]

theorem ttl_small (t : Nat) (ht : t < 2 ^ 63) (x : Option Nat) (hx : x = some t) : ∀ t', x = some t' → t' < 2 ^ 64 := by
  intro t' h'
  rw [hx] at h'; injection h' with h'; subst h'
  have : (2 : Nat) ^ 63 < 2 ^ 64 := by decide
  omega

/-- The race: the reply arrives, then the announcement of a change is handled, then the call stores. From then on the old listing is
returned from the cache for as long as nothing else drops it, up to the whole ttl. -/
theorem C39_race_counterexample (strict : Bool) (k : Kind) (t : Nat) (hp : 0 < t) (ht : t < 2 ^ 63) (o : Outcome D) (d : List (Item D))
    (ho : k.listing strict o = some d) (a b : Bool) (n : Notification D) (_hn : n.method = changedMethod k) (post : List (CacheOp D))
    (hk : Keeps k ((Cache.init strict).run [.setTtl (some t), .call k, .reply 0 o, .note a b n, .store 0]) post)
    (hta : ttlAsked (some t) post = some t) (he : elapsed post < (t + 1) * 1000000) :
    FromCache ((Cache.init strict).run ([.setTtl (some t), .call k, .reply 0 o, .note a b n, .store 0] ++ post)) k d := by
  have hh : Holds ((Cache.init strict).run [.setTtl (some t), .call k, .reply 0 o, .note a b n]) 0 k d := by
    show (Cache.note ((Cache.init strict : Cache D).run [.setTtl (some t), .call k, .reply 0 o]) a b n).calls[0]? = _
    have e3 := first_holds strict k t hp o d ho
    unfold Cache.note
    split
    · show ((Cache.init strict : Cache D).run [.setTtl (some t), .call k, .reply 0 o]).calls[0]? = _
      rw [e3]; rfl
    · rw [e3]; rfl
  have hta' : ttlAsked none ([.setTtl (some t), .call k, .reply 0 o, .note a b n, .store 0] ++ post) = some t := hta
  exact (C38_hit_iff strict _ k d (ttl_small t ht _ hta')).2
    ⟨t, hta', hp, ht, [.setTtl (some t), .call k, .reply 0 o, .note a b n], 0, post, rfl, hh, ⟨t, rfl, hp⟩, hk, he⟩

example : FromCache ((Cache.init true).run (toolCall ++ [.note false false ⟨changedMethod .tools, none⟩, .store 0, .tick 1000000])) .tools toolItems :=
  ⟨rfl, rfl⟩

/-! ### C40 -/

/-- A reply that is no listing: nothing, an error, or a response without a result. -/
def NoListing : Outcome D → Prop
  | .threw => True
  | .nul => True
  | .resp r => r.error.isSome ∨ r.result = none

theorem failed_listing (strict : Bool) (k : Kind) (o : Outcome D) (hf : NoListing o) (ho : o ≠ .threw) : k.listing strict o = some [] := by
  cases o with
  | threw => exact absurd rfl ho
  | nul => rfl
  | resp r =>
    obtain ⟨i, res, err⟩ := r
    unfold Kind.listing
    cases err with
    | some e => rfl
    | none =>
      rcases hf with h | h
      · cases h
      · have h' : res = none := h
        subst h'; rfl

/-- A failed list call, other than by an exception, makes later calls return an empty list from the cache without asking the server. -/
theorem C40_error_counterexample (strict : Bool) (k : Kind) (t : Nat) (hp : 0 < t) (ht : t < 2 ^ 63) (o : Outcome D) (hf : NoListing o)
    (ho : o ≠ .threw) (post : List (CacheOp D))
    (hk : Keeps k ((Cache.init strict).run [.setTtl (some t), .call k, .reply 0 o, .store 0]) post)
    (hta : ttlAsked (some t) post = some t) (he : elapsed post < (t + 1) * 1000000) :
    FromCache ((Cache.init strict).run ([.setTtl (some t), .call k, .reply 0 o, .store 0] ++ post)) k [] := by
  have hl : k.listing strict o = some [] := failed_listing strict k o hf ho
  have hh : Holds ((Cache.init strict).run [.setTtl (some t), .call k, .reply 0 o]) 0 k [] := by
    unfold Holds; rw [first_holds strict k t hp o [] hl]; rfl
  have hta' : ttlAsked none ([.setTtl (some t), .call k, .reply 0 o, .store 0] ++ post) = some t := hta
  exact (C38_hit_iff strict _ k [] (ttl_small t ht _ hta')).2
    ⟨t, hta', hp, ht, [.setTtl (some t), .call k, .reply 0 o], 0, post, rfl, hh, ⟨t, rfl, hp⟩, hk, he⟩

example : FromCache ((Cache.init true).run ([.setTtl (some 5), .call .tools, .reply 0 (.resp ⟨.int 1, none, some (.str (lit "no"))⟩), .store 0] ++
    [.tick 4000000] : List (CacheOp Empty))) .tools [] :=
  ⟨rfl, rfl⟩

/-- Everything returned from the cache came with a reply that did not throw; unless it is the empty list of a failed reply, it is the
listing of a successful response, which in strict mode was valid. -/
theorem C40_success_partial (strict : Bool) (ops : List (CacheOp D)) (k : Kind) (d : List (Item D))
    (h : FromCache ((Cache.init strict).run ops) k d) :
    ∃ p i o q, ops = p ++ .reply i o :: q ∧ o ≠ .threw ∧
      ((NoListing o ∧ d = []) ∨ ∃ r v, o = .resp r ∧ r.error = none ∧ r.result = some v ∧ d = k.items v ∧ (strict = true → k.valid v = true)) := by
  rw [fromCache_iff, hit_iff] at h
  obtain ⟨ttl, _, ts, hs, _⟩ := h
  rcases (slot_run k d ts _ _ (offClear_init strict)).1 hs with ⟨h, _⟩ | ⟨pre, i, post, e, h1, _, _, _⟩
  · have : (⟨[], 0, false⟩ : Slot D) = ⟨d, ts, true⟩ := h
    injection this with _ _ h'; cases h'
  · rcases holds_origin k d i pre _ h1 with h | ⟨p, o, q, e2, _, h3⟩
    · have : (none : Option (Call D)) = some ⟨k, .fetched d⟩ := h
      cases this
    · refine ⟨p, i, o, q ++ .store i :: post, by rw [e, e2]; simp, ?_⟩
      have h3' : k.listing strict o = some d := h3
      cases o with
      | threw => cases h3'
      | nul =>
        refine ⟨(by intro e; cases e), Or.inl ⟨trivial, ?_⟩⟩
        injection h3' with h3'; exact h3'.symm
      | resp r =>
        refine ⟨by (intro e; cases e), ?_⟩
        obtain ⟨ri, res, err⟩ := r
        cases err with
        | some x =>
          refine Or.inl ⟨Or.inl rfl, ?_⟩
          have : some [] = some d := h3'
          injection this with this; exact this.symm
        | none =>
          cases res with
          | none =>
            refine Or.inl ⟨Or.inr rfl, ?_⟩
            have : some [] = some d := h3'
            injection this with this; exact this.symm
          | some v =>
            have h4 : (if strict && !k.valid v then none else some (k.items v)) = some d := h3'
            refine Or.inr ⟨_, v, rfl, rfl, rfl, ?_⟩
            cases strict with
            | false =>
              simp at h4; exact ⟨h4.symm, fun e => by cases e⟩
            | true =>
              cases hv : k.valid v with
              | false => rw [hv] at h4; cases h4
              | true => rw [hv] at h4; simp at h4; exact ⟨h4.symm, fun _ => rfl⟩

example : FromCache ((Cache.init true).run (toolCall ++ [.store 0])) .tools toolItems := ⟨rfl, rfl⟩

/-- A list call that fails with an exception, of the transport or of the strict validation, changes no cache, whenever it goes on. -/
theorem C40_exception_not_cached (s : Cache D) (i : Nat) (k : Kind) (o : Outcome D) (hw : s.calls[i]? = some ⟨k, .waiting⟩)
    (hl : k.listing s.strict o = none) (ops : List (CacheOp D)) :
    (s.step (.reply i o)).slots = s.slots ∧ (s.run (.reply i o :: ops)).step (.store i) = s.run (.reply i o :: ops) := by
  constructor
  · show (s.reply i o).slots = s.slots
    unfold Cache.reply; split <;> rfl
  · have h1 : (s.step (.reply i o)).calls[i]? = some ⟨k, .done none⟩ := by
      have hlen : i < s.calls.length := by
        rw [List.getElem?_eq_some_iff] at hw; exact hw.1
      show (s.reply i o).calls[i]? = _
      unfold Cache.reply
      rw [hw]
      show (s.calls.set i _)[i]? = _
      rw [List.getElem?_set_self hlen]; unfold afterReply; rw [hl]
    have h2 := done_stays ops _ i k none h1
    rw [cache_run_cons]
    show Cache.store _ i = _
    unfold Cache.store
    rw [h2]

example : ((Cache.init true).run [.setTtl (some 5), .call .tools] : Cache Empty).calls[0]? = some ⟨.tools, .waiting⟩ ∧
    Kind.tools.listing true (.resp ⟨.int 1, some (.obj [(lit "tools", .arr [.obj []])]), none⟩ : Outcome Empty) = none :=
  ⟨rfl, rfl⟩

/-! ### C79 -/

open Server Validation in
/-- A request without parameters gets the whole list. -/
theorem whole_page {T : Type} (key : Bytes) (toJson : T → JVal D) (items : List T) :
    pageJson key toJson items (paging (none : Option (JVal D))) = .obj [(key, .arr (items.map toJson))] := by
  unfold pageJson
  have h1 : (paging (none : Option (JVal D))) = (0, none) := rfl
  have h2 : clampStart items.length 0 = 0 := by unfold clampStart; rw [if_neg (by omega)]
  rw [h1]
  simp only
  rw [h2]
  have h3 : slice items 0 (endOf items.length 0 none) = items := by
    unfold slice endOf; simp
  rw [h3]
  rfl

theorem allTools_map (l : List (Items.Tool D)) (h : ∀ t ∈ l, Items.IconsOK t.icons) : allTools (l.map Items.makeTool) = l.map .tool := by
  induction l with
  | nil => rfl
  | cons t l ih =>
    obtain ⟨m, h1, h2⟩ := C62_tool_roundtrip t (h t (by simp))
    rw [List.map_cons, h1, List.map_cons]
    show Item.tool (Items.readTool m) :: allTools (l.map Items.makeTool) = _
    rw [h2, ih (fun t ht => h t (by simp [ht]))]

open Server in
theorem readItems_wrap {T : Type} (read : List (Bytes × JVal D) → T) (wrap : T → Item D) (toJson : T → JVal D) (l : List T)
    (h : ∀ t ∈ l, ∃ m, toJson t = .obj m ∧ read m = t) : readItems (fun m => wrap (read m)) (l.map toJson) = l.map wrap := by
  induction l with
  | nil => rfl
  | cons t l ih =>
    obtain ⟨m, h1, h2⟩ := h t (by simp)
    rw [List.map_cons, h1, readItems, h2, ih (fun t ht => h t (by simp [ht]))]
    rfl

open Server Validation in
theorem listing_delivered {T : Type} (k : Kind) (item : JVal D → Bool) (hkv : (k.valid : JVal D → Bool) = validateListing k.key item)
    (toJson : T → JVal D) (msg : Bytes) (sStrict cStrict : Bool) (items : List T) (hk : k.key ≠ lit "nextCursor")
    (hv : sStrict = true ∨ cStrict = true → ∀ t ∈ items, item (toJson t) = true) :
    k.listing cStrict (delivered (listReply k.key toJson (validateListing k.key item) msg sStrict items none)) = some (k.read (items.map toJson)) := by
  rw [listReply_ok k.key hk item toJson msg sStrict items (fun h => hv (.inl h))]
  unfold delivered Kind.listing Resource.Reply.toResponse
  simp only
  rw [if_neg]
  · rw [whole_page]
    unfold Kind.items
    simp only [Items.get_single_self]
  · rw [hkv]
    cases cStrict with
    | false => simp
    | true => simp [valid_page k.key hk item toJson items (hv (.inr rfl))]

open Server Validation in
/-- **C79.** ListTools returns all registered tools as registered, in the order of their names. -/
theorem C79_tools {H : Type} (ops : List (Bool × RegOp D H)) (sStrict cStrict : Bool)
    (hi : ∀ t ∈ (Reg.init.run ops).tools, Items.IconsOK t.icons)
    (hv : sStrict = true ∨ cStrict = true → ∀ t ∈ (Reg.init.run ops).tools, isToolEntry (Items.makeTool t) = true) :
    ∃ l : List (Items.Tool D), l.Perm (Reg.init.run ops).tools ∧ Increasing (·.name) l ∧
      Kind.tools.listing cStrict (delivered (handleTools (Reg.init.run ops) sStrict none)) = some (l.map .tool) := by
  refine ⟨_, sortBy_perm _ _, increasing_sortBy _ _ (C33_listed_once ops).1, ?_⟩
  have hp := sortBy_perm (fun t : Items.Tool D => t.name) (Reg.init.run ops).tools
  have h := listing_delivered .tools isToolEntry rfl Items.makeTool (lit "Invalid tools/list result shape") sStrict cStrict
    (sortBy (fun t : Items.Tool D => t.name) (Reg.init.run ops).tools) (by decide) (fun h t ht => hv h t (hp.subset ht))
  show Kind.tools.listing cStrict (delivered (listReply (lit "tools") _ _ _ _ _ _)) = _
  refine h.trans ?_
  show some (allTools _) = _
  rw [allTools_map _ (fun t ht => hi t (hp.subset ht))]

open Server Validation in
/-- **C79.** ListResources returns the resources the client may see. -/
theorem C79_resources {H : Type} (ops : List (Bool × RegOp D H)) (ui sStrict cStrict : Bool)
    (hi : ∀ t ∈ (Reg.init.run ops).visible ui, Items.IconsOK t.icons)
    (hv : sStrict = true ∨ cStrict = true → ∀ t ∈ (Reg.init.run ops).visible ui, isResourceEntry (Items.makeResource t) = true) :
    ∃ l : List (Items.Resource D), l.Perm ((Reg.init.run ops).visible ui) ∧ Increasing (·.uri) l ∧
      Kind.resources.listing cStrict (delivered (handleResources (Reg.init.run ops) ui sStrict none)) = some (l.map .resource) := by
  refine ⟨_, sortBy_perm _ _, increasing_sortBy _ _ ((C33_listed_once ops).2.2.1 ui), ?_⟩
  have hp := sortBy_perm (fun t : Items.Resource D => t.uri) ((Reg.init.run ops).visible ui)
  have h := listing_delivered .resources isResourceEntry rfl Items.makeResource (lit "Invalid resources/list result shape") sStrict cStrict
    (sortBy (fun t : Items.Resource D => t.uri) ((Reg.init.run ops).visible ui)) (by decide) (fun h t ht => hv h t (hp.subset ht))
  show Kind.resources.listing cStrict (delivered (listReply (lit "resources") _ _ _ _ _ _)) = _
  refine h.trans ?_
  show some (readItems _ _) = _
  rw [readItems_wrap _ .resource Items.makeResource _ (fun t ht => C62_resource_roundtrip t (hi t (hp.subset ht)))]

open Server Validation in
/-- **C79.** ListResourceTemplates. -/
theorem C79_templates {H : Type} (ops : List (Bool × RegOp D H)) (sStrict cStrict : Bool)
    (hi : ∀ t ∈ (Reg.init.run ops).templateList, Items.IconsOK t.icons)
    (hv : sStrict = true ∨ cStrict = true → ∀ t ∈ (Reg.init.run ops).templateList, isTemplateEntry (Items.makeTemplate t) = true) :
    ∃ l : List (Items.Template D), l.Perm (Reg.init.run ops).templateList ∧ Increasing (·.uriTemplate) l ∧
      Kind.templates.listing cStrict (delivered (handleTemplates (Reg.init.run ops) sStrict none)) = some (l.map .template) := by
  refine ⟨_, sortBy_perm _ _, increasing_sortBy _ _ (C33_listed_once ops).2.2.2, ?_⟩
  have hp := sortBy_perm (fun t : Items.Template D => t.uriTemplate) (Reg.init.run ops).templateList
  have h := listing_delivered .templates isTemplateEntry rfl Items.makeTemplate (lit "Invalid resources/templates/list result shape") sStrict cStrict
    (sortBy (fun t : Items.Template D => t.uriTemplate) (Reg.init.run ops).templateList) (by decide) (fun h t ht => hv h t (hp.subset ht))
  show Kind.templates.listing cStrict (delivered (listReply (lit "resourceTemplates") _ _ _ _ _ _)) = _
  refine h.trans ?_
  show some (readItems _ _) = _
  rw [readItems_wrap _ .template Items.makeTemplate _ (fun t ht => C62_template_roundtrip t (hi t (hp.subset ht)))]

open Server Validation in
/-- **C79.** ListPrompts. -/
theorem C79_prompts {H : Type} (ops : List (Bool × RegOp D H)) (sStrict cStrict : Bool)
    (hi : ∀ t ∈ (Reg.init.run ops).prompts, Items.IconsOK t.icons)
    (hv : sStrict = true ∨ cStrict = true → ∀ t ∈ (Reg.init.run ops).prompts, isPromptEntry (Items.makePrompt t) = true) :
    ∃ l : List (Items.Prompt D), l.Perm (Reg.init.run ops).prompts ∧ Increasing (·.name) l ∧
      Kind.prompts.listing cStrict (delivered (handlePrompts (Reg.init.run ops) sStrict none)) = some (l.map .prompt) := by
  refine ⟨_, sortBy_perm _ _, increasing_sortBy _ _ (C33_listed_once ops).2.1, ?_⟩
  have hp := sortBy_perm (fun t : Items.Prompt D => t.name) (Reg.init.run ops).prompts
  have h := listing_delivered .prompts isPromptEntry rfl Items.makePrompt (lit "Invalid prompts/list result shape") sStrict cStrict
    (sortBy (fun t : Items.Prompt D => t.name) (Reg.init.run ops).prompts) (by decide) (fun h t ht => hv h t (hp.subset ht))
  show Kind.prompts.listing cStrict (delivered (listReply (lit "prompts") _ _ _ _ _ _)) = _
  refine h.trans ?_
  show some (readItems _ _) = _
  rw [readItems_wrap _ .prompt Items.makePrompt _ (fun t ht => C62_prompt_roundtrip t (hi t (hp.subset ht)))]

open Server Validation in
example : (∀ t ∈ (Reg.init.run [(false, .toolNamed (lit "b") 1), (false, .toolNamed (lit "a") 2)] : Reg Empty Nat).tools,
      isToolEntry (Items.makeTool t) = true ∧ t.icons = none) ∧
    (Kind.tools.listing true (delivered (handleTools (Reg.init.run [(false, .toolNamed (lit "b") 1), (false, .toolNamed (lit "a") 2)] : Reg Empty Nat)
      true none))).map List.length = some 2 := by
  decide +kernel

end Verif
