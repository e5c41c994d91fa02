import Verif.Base.Lemmas
import Verif.Framer.Model

/-! Helper lemmas about the framer and the drain loop. -/

namespace Verif.Framer

theorem splitSub_append {pat s a b : Bytes} (x : Bytes) (h : splitSub pat s = some (a, b)) (hp : pat ≠ []) :
    splitSub pat (s ++ x) = some (a, b ++ x) := by
  induction s generalizing a b with
  | nil => simp [splitSub, hp] at h
  | cons c cs ih =>
    unfold splitSub at h
    rw [List.cons_append]
    unfold splitSub
    split at h
    · rename_i hpre
      simp only [Option.some.injEq, Prod.mk.injEq] at h
      obtain ⟨rfl, rfl⟩ := h
      rw [List.isPrefixOf_iff_prefix] at hpre
      rw [if_pos]
      · rw [← List.cons_append, List.drop_append_of_le_length hpre.length_le]
      · rw [List.isPrefixOf_iff_prefix, ← List.cons_append]
        exact hpre.trans (List.prefix_append _ _)
    · rename_i hpre
      rw [Option.map_eq_some_iff] at h
      obtain ⟨⟨a', b'⟩, h1, h2⟩ := h
      simp only [Prod.mk.injEq] at h2
      obtain ⟨rfl, rfl⟩ := h2
      rw [if_neg]
      · rw [ih h1]; simp
      · -- a longer text could only have a new prefix match if `pat` were longer than the old text
        intro hpre'
        apply hpre
        rw [List.isPrefixOf_iff_prefix] at hpre' ⊢
        have hlen : pat.length ≤ (c :: cs).length := by
          rw [splitSub_sound h1]; simp; omega
        have := List.prefix_of_prefix_length_le hpre' (by rw [← List.cons_append]; exact List.prefix_append (c :: cs) x) hlen
        exact this

/-- A header line of a scan never asks for more than the maximum. -/
theorem scanLines_len {max : Nat} {ls : List Bytes} {acc : Option Nat} {n : Nat}
    (hacc : ∀ m, acc = some m → m ≤ max) (h : scanLines max acc ls = .len (some n)) : n ≤ max := by
  induction ls generalizing acc with
  | nil => simp only [scanLines, Hdr.len.injEq] at h; exact hacc n h
  | cons l ls ih =>
    simp only [scanLines] at h
    split at h
    · exact ih hacc h
    · split at h
      · cases h
      · split at h
        · cases h
        · rename_i hn
          refine ih ?_ h
          intro m hm
          simp only [Option.some.injEq] at hm
          omega

theorem tryDecodeEx_ok {max : Nat} {buf p : Bytes} {k : Nat} (h : tryDecodeEx max buf = .ok p k) :
    p.length ≤ max ∧ 0 < k ∧ k ≤ buf.length := by
  unfold tryDecodeEx at h
  split at h
  · cases h
  · rename_i hdr body hs
    simp only at h
    split at h <;> try cases h
    rename_i n hn
    split at h
    · cases h
    · split at h
      · cases h
      · rename_i h1 h2
        simp only [Dec.ok.injEq] at h
        obtain ⟨rfl, rfl⟩ := h
        have := scanLines_len (by simp) hn
        simp only [List.length_take, sep, List.length_cons, List.length_nil] at *
        omega

theorem tryDecodeEx_invalid {max : Nat} {buf : Bytes} {k : Nat} (h : tryDecodeEx max buf = .invalid k) :
    0 < k ∧ k ≤ buf.length := by
  have key : ∀ hdr body, splitSub sep buf = some (hdr, body) → k = hdr.length + sep.length → 0 < k ∧ k ≤ buf.length := by
    intro hdr body hs hk
    have := congrArg List.length (splitSub_sound hs)
    simp only [List.length_append, sep, List.length_cons, List.length_nil] at *
    omega
  unfold tryDecodeEx at h
  split at h
  · cases h
  · rename_i hdr body hs
    simp only at h
    split at h
    · cases h
    · simp only [Dec.invalid.injEq] at h; exact key _ _ hs h.symm
    · simp only [Dec.invalid.injEq] at h; exact key _ _ hs h.symm
    · split at h
      · simp only [Dec.invalid.injEq] at h; exact key _ _ hs h.symm
      · split at h <;> cases h

/-- Prefix stability: a decision, once made, is not changed by later bytes. -/
theorem tryDecodeEx_append {max : Nat} {buf : Bytes} (x : Bytes) (h : tryDecodeEx max buf ≠ .incomplete) :
    tryDecodeEx max (buf ++ x) = tryDecodeEx max buf := by
  unfold tryDecodeEx at h ⊢
  cases hs : splitSub sep buf with
  | none => rw [hs] at h; exact absurd rfl h
  | some p =>
    obtain ⟨hdr, body⟩ := p
    rw [splitSub_append x hs (by decide)]
    rw [hs] at h
    simp only at h ⊢
    cases hsc : scanLines max none (headerLines [] hdr) with
    | tooLarge => rfl
    | invalid => rfl
    | len o =>
      cases o with
      | none => rfl
      | some n =>
        rw [hsc] at h
        simp only at h ⊢
        split
        · rfl
        · rename_i h1
          rw [if_neg h1] at h
          split at h
          · exact absurd rfl h
          · rename_i h2
            have hl := congrArg List.length (splitSub_sound hs)
            rw [if_neg (by simp only [List.length_append] at *; omega)]
            rw [if_neg h2]
            rw [List.take_append_of_le_length]
            simp only [List.length_append] at *
            omega

/-- One unfolding of the drain loop. -/
theorem drain_succ {max : Nat} {stay : List Bytes → Bool} {n : Nat} {r : Reader} :
    drain max stay (n + 1) r =
      if r.connected = false then r
      else
        match tryDecodeEx max r.buf with
        | .incomplete => r
        | .ok p k =>
          drain max stay n
            { r with buf := r.buf.drop k, delivered := r.delivered ++ [p], connected := stay (r.delivered ++ [p]) }
        | .invalid k => drain max stay n { r with buf := r.buf.drop k }
        | .tooLarge _ => { r with connected := false, errors := r.errors + 1 } := by
  rw [drain]
  split
  · rfl
  · cases h : tryDecodeEx max r.buf with
    | incomplete => rfl
    | ok p k =>
      have := tryDecodeEx_ok h
      simp only [if_pos this.2]
    | invalid k =>
      have := tryDecodeEx_invalid h
      simp only [if_pos this]
    | tooLarge k => rfl

/-- More fuel than bytes never matters: the loop terminates. -/
theorem drain_fuel {max : Nat} {stay : List Bytes → Bool} :
    ∀ (n m : Nat) (r : Reader), r.buf.length < n → r.buf.length < m → drain max stay n r = drain max stay m r
  | 0, _, _, h, _ => absurd h (Nat.not_lt_zero _)
  | _ + 1, 0, _, _, h => absurd h (Nat.not_lt_zero _)
  | n + 1, m + 1, r, hn, hm => by
    rw [drain_succ, drain_succ]
    split
    · rfl
    · cases h : tryDecodeEx max r.buf with
      | incomplete => rfl
      | tooLarge k => rfl
      | ok p k =>
        have := tryDecodeEx_ok h
        simp only
        apply drain_fuel n m <;> simp only [List.length_drop] <;> omega
      | invalid k =>
        have := tryDecodeEx_invalid h
        simp only
        apply drain_fuel n m <;> simp only [List.length_drop] <;> omega

theorem drainAll_step {max : Nat} {stay : List Bytes → Bool} {r : Reader} :
    drainAll max stay r =
      if r.connected = false then r
      else
        match tryDecodeEx max r.buf with
        | .incomplete => r
        | .ok p k =>
          drainAll max stay
            { r with buf := r.buf.drop k, delivered := r.delivered ++ [p], connected := stay (r.delivered ++ [p]) }
        | .invalid k => drainAll max stay { r with buf := r.buf.drop k }
        | .tooLarge _ => { r with connected := false, errors := r.errors + 1 } := by
  unfold drainAll
  rw [drain_succ]
  split
  · rfl
  · cases h : tryDecodeEx max r.buf with
    | incomplete => rfl
    | tooLarge k => rfl
    | ok p k =>
      have := tryDecodeEx_ok h
      simp only
      apply drain_fuel <;> simp only [List.length_drop] <;> omega
    | invalid k =>
      have := tryDecodeEx_invalid h
      simp only
      apply drain_fuel <;> simp only [List.length_drop] <;> omega

theorem drainAll_disconnected {max : Nat} {stay : List Bytes → Bool} {r : Reader} (h : r.connected = false) :
    drainAll max stay r = r := by
  rw [drainAll_step, if_pos h]

/-- Equality of everything observable: the buffer of a disconnected reader is never looked at again. -/
def Same (a b : Reader) : Prop :=
  a.delivered = b.delivered ∧ a.connected = b.connected ∧ a.errors = b.errors ∧
    (a.connected = true → a.buf = b.buf)

theorem Same.refl (a : Reader) : Same a a := ⟨rfl, rfl, rfl, fun _ => rfl⟩

theorem Same.trans {a b c : Reader} (h : Same a b) (h' : Same b c) : Same a c :=
  ⟨h.1.trans h'.1, h.2.1.trans h'.2.1, h.2.2.1.trans h'.2.2.1,
    fun hc => (h.2.2.2 hc).trans (h'.2.2.2 (h.2.1 ▸ hc))⟩

theorem Same.symm {a b : Reader} (h : Same a b) : Same b a :=
  ⟨h.1.symm, h.2.1.symm, h.2.2.1.symm, fun hc => (h.2.2.2 (h.2.1.symm ▸ hc)).symm⟩

/-- Draining a longer buffer is draining the prefix first and then going on. -/
theorem drainAll_append {max : Nat} {stay : List Bytes → Bool} (x : Bytes) :
    ∀ (n : Nat) (r : Reader), r.buf.length < n →
      Same (drainAll max stay { r with buf := r.buf ++ x }) (feed max stay (drainAll max stay r) x)
  | 0, _, h => absurd h (Nat.not_lt_zero _)
  | n + 1, r, hn => by
    by_cases hc : r.connected = false
    · rw [drainAll_disconnected (by simpa using hc), drainAll_disconnected hc, feed, if_neg (by simp [hc])]
      exact ⟨rfl, rfl, rfl, fun h => by simp [hc] at h⟩
    · by_cases hi : tryDecodeEx max r.buf = .incomplete
      · have : drainAll max stay r = r := by rw [drainAll_step, if_neg hc, hi]
        rw [this, feed, if_pos (by simpa using hc)]
        exact Same.refl _
      · rw [drainAll_step, if_neg (by simpa using hc)]
        rw [drainAll_step (r := r), if_neg hc]
        simp only
        rw [tryDecodeEx_append x hi]
        cases h : tryDecodeEx max r.buf with
        | incomplete => exact absurd h hi
        | tooLarge k =>
          simp only [feed]
          exact ⟨rfl, rfl, rfl, fun h => by simp at h⟩
        | ok p k =>
          have hk := tryDecodeEx_ok h
          simp only
          rw [List.drop_append_of_le_length hk.2.2]
          exact drainAll_append x n
            { r with buf := r.buf.drop k, delivered := r.delivered ++ [p], connected := stay (r.delivered ++ [p]) }
            (by simp only [List.length_drop]; omega)
        | invalid k =>
          have hk := tryDecodeEx_invalid h
          simp only
          rw [List.drop_append_of_le_length hk.2]
          exact drainAll_append x n { r with buf := r.buf.drop k } (by simp only [List.length_drop]; omega)

theorem feed_same {max : Nat} {stay : List Bytes → Bool} {a b : Reader} (x : Bytes) (h : Same a b) :
    Same (feed max stay a x) (feed max stay b x) := by
  unfold feed
  by_cases hc : a.connected = true
  · have hb : b.connected = true := h.2.1 ▸ hc
    rw [if_pos hc, if_pos hb]
    have : a = b := by
      obtain ⟨h1, h2, h3, h4⟩ := h
      cases a; cases b
      simp_all
    rw [this]; exact Same.refl _
  · have hb : ¬ b.connected = true := fun hb => hc (h.2.1.symm ▸ hb)
    rw [if_neg hc, if_neg hb]
    exact h

theorem feed_append {max : Nat} {stay : List Bytes → Bool} (r : Reader) (x y : Bytes) :
    Same (feed max stay r (x ++ y)) (feed max stay (feed max stay r x) y) := by
  by_cases hc : r.connected = true
  · have h1 : feed max stay r (x ++ y) = drainAll max stay { r with buf := (r.buf ++ x) ++ y } := by
      rw [feed, if_pos hc, List.append_assoc]
    have h2 : feed max stay r x = drainAll max stay { r with buf := r.buf ++ x } := by rw [feed, if_pos hc]
    rw [h1, h2]
    exact drainAll_append y _ { r with buf := r.buf ++ x } (Nat.lt_succ_self _)
  · have h0 : ∀ z, feed max stay r z = r := fun z => by rw [feed, if_neg hc]
    rw [h0, h0, h0]
    exact Same.refl _

theorem feed_nil_init {max : Nat} {stay : List Bytes → Bool} : feed max stay Reader.init [] = Reader.init := by
  have : Reader.init.connected = true := rfl
  rw [feed, if_pos this, drainAll_step, if_neg (by simp [Reader.init])]
  rfl

theorem feed_foldl_same {max : Nat} {stay : List Bytes → Bool} {a b : Reader} :
    ∀ (cs : List Bytes), Same a b → Same (cs.foldl (feed max stay) a) (cs.foldl (feed max stay) b)
  | [], h => h
  | c :: cs, h => feed_foldl_same cs (feed_same c h)

/-- Any chunking behaves like one read of the whole. -/
theorem feedAll_flatten {max : Nat} {stay : List Bytes → Bool} (cs : List Bytes) :
    Same (feedAll max stay cs) (feed max stay Reader.init cs.flatten) := by
  have key : ∀ (cs : List Bytes) (x : Bytes),
      Same (cs.foldl (feed max stay) (feed max stay Reader.init x)) (feed max stay Reader.init (x ++ cs.flatten)) := by
    intro cs
    induction cs with
    | nil => intro x; simp only [List.foldl_nil, List.flatten_nil, List.append_nil]; exact Same.refl _
    | cons c cs ih =>
      intro x
      simp only [List.foldl_cons, List.flatten_cons]
      rw [← List.append_assoc]
      exact (feed_foldl_same cs (feed_append _ x c).symm).trans (ih (x ++ c))
  have := key cs []
  rw [feed_nil_init] at this
  exact this

/-! ### Header lines -/

/-- A header line as a peer may write it: not empty, no CR and no LF. -/
def PlainLine (l : Bytes) : Prop := l ≠ [] ∧ '\r' ∉ l ∧ '\n' ∉ l

/-- Lines separated by CRLF. -/
def joinLines : List Bytes → Bytes
  | [] => []
  | [l] => l
  | l :: ls => l ++ ('\r' :: '\n' :: joinLines ls)

theorem headerLines_single : ∀ (l cur : Bytes), '\r' ∉ l → headerLines cur l = if cur ++ l = [] then [] else [cur ++ l]
  | [], cur, _ => by simp [headerLines]
  | [c], cur, _ => by simp [headerLines]
  | c :: d :: r, cur, h => by
    simp only [List.mem_cons, not_or] at h
    rw [headerLines, if_neg (fun e => h.1 e.1.symm), headerLines_single (d :: r) _ (by simp [h.2])]
    simp

theorem headerLines_line : ∀ (l cur r : Bytes), '\r' ∉ l →
    headerLines cur (l ++ '\r' :: '\n' :: r) = (cur ++ l) :: headerLines [] r
  | [], cur, r, _ => by simp [headerLines]
  | [c], cur, r, h => by
    simp only [List.mem_cons, not_or] at h
    simp only [List.cons_append, List.nil_append]
    rw [headerLines, if_neg (fun e => h.1 e.1.symm), headerLines, if_pos ⟨rfl, rfl⟩]
  | c :: d :: l, cur, r, h => by
    simp only [List.mem_cons, not_or] at h
    simp only [List.cons_append]
    rw [headerLines, if_neg (fun e => h.1 e.1.symm)]
    have := headerLines_line (d :: l) (cur ++ [c]) r (by simp [h.2])
    simp only [List.cons_append] at this
    rw [this]; simp

theorem headerLines_join : ∀ (ls : List Bytes), (∀ l ∈ ls, PlainLine l) → headerLines [] (joinLines ls) = ls
  | [], _ => by simp [joinLines, headerLines]
  | [l], h => by
    have := h l (by simp)
    rw [joinLines, headerLines_single _ _ this.2.1]
    simp [this.1]
  | l :: m :: ls, h => by
    have := h l (by simp)
    rw [joinLines, headerLines_line _ _ _ this.2.1, headerLines_join (m :: ls) (fun x hx => h x (by simp [hx]))]
    · simp
    · simp

/-- No separator starts inside a block of plain lines. -/
theorem no_sep_in_lines : ∀ (ls : List Bytes), (∀ l ∈ ls, PlainLine l) → ls ≠ [] → ∀ (b x y : Bytes),
    joinLines ls = x ++ y → y ≠ [] → ¬ sep <+: y ++ sep ++ b := by
  -- inside a line
  have inLine : ∀ (l : Bytes), '\r' ∉ l → ∀ (t x y : Bytes), l = x ++ y → y ≠ [] → ¬ sep <+: y ++ t := by
    intro l hl t x y hxy hy hpre
    cases y with
    | nil => exact hy rfl
    | cons c y =>
      simp only [sep, List.cons_append, List.cons_prefix_cons] at hpre
      exact hl (by rw [hxy, hpre.1]; simp)
  intro ls
  induction ls with
  | nil => intro _ h; exact absurd rfl h
  | cons l ls ih =>
    intro h _ b x y hxy hy
    have hl := h l (by simp)
    cases ls with
    | nil =>
      rw [joinLines] at hxy
      rw [List.append_assoc]
      exact inLine l hl.2.1 _ x y hxy hy
    | cons m ls =>
      rw [joinLines] at hxy
      · rw [List.append_eq_append_iff] at hxy
        rcases hxy with ⟨a', h1, h2⟩ | ⟨c', h1, h2⟩
        · -- x = l ++ a', y is inside CRLF ++ rest
          cases a' with
          | nil =>
            simp only [List.nil_append] at h2
            rw [← h2]
            have hm := h m (by simp)
            intro hpre
            simp only [sep, List.cons_append, List.cons_prefix_cons, true_and] at hpre
            cases m with
            | nil => exact hm.1 rfl
            | cons c m =>
              have : ∃ t, joinLines ((c :: m) :: ls) = c :: t := by
                cases ls with
                | nil => exact ⟨m, rfl⟩
                | cons k ls => exact ⟨m ++ ('\r' :: '\n' :: joinLines (k :: ls)), by rw [joinLines]; rfl; simp⟩
              obtain ⟨t, ht⟩ := this
              rw [ht] at hpre
              simp only [List.cons_append, List.cons_prefix_cons] at hpre
              exact hm.2.1 (by rw [hpre.1]; simp)
          | cons c a' =>
            cases a' with
            | nil =>
              simp only [List.cons_append, List.nil_append, List.cons.injEq] at h2
              obtain ⟨_, h2⟩ := h2
              rw [← h2]
              intro hpre
              simp only [sep, List.cons_append, List.cons_prefix_cons] at hpre
              exact absurd hpre.1 (by decide)
            | cons d a' =>
              simp only [List.cons_append, List.cons.injEq] at h2
              exact ih (fun x hx => h x (by simp at hx; simp [hx])) (by simp) b a' y h2.2.2 hy
        · -- x is a proper prefix of l
          by_cases hc : c' = []
          · subst hc
            simp only [List.nil_append] at h2
            -- y = CRLF ++ rest: as above
            rw [h2]
            have hm := h m (by simp)
            intro hpre
            simp only [sep, List.cons_append, List.cons_prefix_cons, true_and] at hpre
            cases m with
            | nil => exact hm.1 rfl
            | cons c m =>
              have : ∃ t, joinLines ((c :: m) :: ls) = c :: t := by
                cases ls with
                | nil => exact ⟨m, rfl⟩
                | cons k ls => exact ⟨m ++ ('\r' :: '\n' :: joinLines (k :: ls)), by rw [joinLines]; rfl; simp⟩
              obtain ⟨t, ht⟩ := this
              rw [ht] at hpre
              simp only [List.cons_append, List.cons_prefix_cons] at hpre
              exact hm.2.1 (by rw [hpre.1]; simp)
          · rw [h2, List.append_assoc, List.append_assoc]
            exact inLine l hl.2.1 _ x c' h1 hc
      · simp

theorem splitSub_lines (ls : List Bytes) (h : ∀ l ∈ ls, PlainLine l) (b : Bytes) :
    splitSub sep (joinLines ls ++ sep ++ b) = some (joinLines ls, b) := by
  by_cases hls : ls = []
  · subst hls
    exact splitSub_first (by decide) [] b (by intro x y hxy hy; simp at hxy; exact absurd hxy.2 hy)
  · exact splitSub_first (by decide) _ b (no_sep_in_lines ls h hls b)

/-- Decoding of a block of plain header lines followed by the separator and a body. -/
theorem tryDecodeEx_lines (max : Nat) (ls : List Bytes) (h : ∀ l ∈ ls, PlainLine l) (b : Bytes) :
    tryDecodeEx max (joinLines ls ++ sep ++ b) =
      match scanLines max none ls with
      | .tooLarge => .tooLarge ((joinLines ls).length + 4)
      | .invalid => .invalid ((joinLines ls).length + 4)
      | .len none => .invalid ((joinLines ls).length + 4)
      | .len (some n) =>
        if n > sizeMax - ((joinLines ls).length + 4) then .invalid ((joinLines ls).length + 4)
        else if b.length < n then .incomplete
        else .ok (b.take n) ((joinLines ls).length + 4 + n) := by
  unfold tryDecodeEx
  rw [splitSub_lines ls h b]
  simp only [headerLines_join ls h, show sep.length = 4 from rfl]
  cases scanLines max none ls with
  | tooLarge => rfl
  | invalid => rfl
  | len o =>
    cases o with
    | none => rfl
    | some n =>
      simp only
      split
      · rfl
      · have : ((joinLines ls ++ sep ++ b).length < (joinLines ls).length + 4 + n) = (b.length < n) := by
          simp only [List.length_append, show sep.length = 4 from rfl, eq_iff_iff]; omega
        simp only [this]

theorem takeWhile_all {p : Char → Bool} : ∀ {ds r : Bytes}, (∀ c ∈ ds, p c = true) →
    (∀ c, r.head? = some c → p c = false) → (ds ++ r).takeWhile p = ds
  | [], r, _, h2 => by
    cases r with
    | nil => rfl
    | cons c r => simp [h2 c rfl]
  | d :: ds, r, h1, h2 => by
    simp only [List.cons_append, List.takeWhile_cons, h1 d (by simp), if_true]
    rw [takeWhile_all (fun c hc => h1 c (by simp [hc])) h2]

theorem dropWhile_none {p : Char → Bool} {s : Bytes} (h : ∀ c, s.head? = some c → p c = false) : s.dropWhile p = s := by
  cases s with
  | nil => rfl
  | cons c s => simp [h c rfl]

theorem isDig_not_space {c : Char} (h : isDig c = true) : isSpaceCh c = false := by
  simp only [isDig, decide_eq_true_eq] at h
  have hne : ∀ d : Char, d.toNat < 48 → c ≠ d := by
    intro d hd e; subst e
    have : ('0').toNat = 48 := rfl
    omega
  simp only [isSpaceCh, Bool.or_eq_false_iff, decide_eq_false_iff_not]
  have h0 : ('0').toNat = 48 := rfl
  refine ⟨⟨⟨⟨⟨?_, ?_⟩, ?_⟩, ?_⟩, ?_⟩, ?_⟩
  · exact hne _ (by decide)
  · exact hne _ (by decide)
  · exact hne _ (by decide)
  · exact hne _ (by decide)
  · omega
  · omega

theorem isDig_not_sign {c : Char} (h : isDig c = true) : c ≠ '-' ∧ c ≠ '+' := by
  constructor <;> (rintro rfl; revert h; decide)

/-- `stoull` on a non-empty run of digits followed by a non-digit (or nothing). -/
theorem stoull_digits {ds r : Bytes} (hds : ds ≠ []) (h : ∀ c ∈ ds, isDig c = true)
    (hr : ∀ c, r.head? = some c → isDig c = false) :
    stoull (ds ++ r) = if digitsVal ds > sizeMax then none else some (digitsVal ds) := by
  cases ds with
  | nil => exact absurd rfl hds
  | cons d ds =>
    have hd := h d (by simp)
    have hsp := isDig_not_space hd
    have hsg := isDig_not_sign hd
    unfold stoull
    have e1 : (d :: ds ++ r).dropWhile isSpaceCh = d :: ds ++ r :=
      dropWhile_none (by intro c hc; simp at hc; subst hc; exact hsp)
    simp only [e1]
    have e2 : ¬ ((d :: ds ++ r).head? = some '-' ∨ (d :: ds ++ r).head? = some '+') := by
      simp [hsg.1, hsg.2]
    have e3 : ¬ (d :: ds ++ r).head? = some '-' := by simp [hsg.1]
    rw [if_neg e2, takeWhile_all h hr]
    simp only [if_neg e3]
    simp

theorem encode_eq (p : Bytes) : encode p = joinLines [lit "Content-Length: " ++ natDec p.length] ++ sep ++ p := rfl

theorem clen_line_plain (n : Nat) : PlainLine (lit "Content-Length: " ++ natDec n) := by
  refine ⟨by simp [lit], ?_, ?_⟩ <;>
  · rw [List.mem_append]
    rintro (h | h)
    · revert h; decide
    · have := natDec_isDig h; revert this; decide

theorem clenValue_encode (n : Nat) : clenValue (lit "Content-Length: " ++ natDec n) = some (natDec n) := by
  have : lit "Content-Length: " ++ natDec n = lit "Content-Length" ++ ':' :: (' ' :: natDec n) := rfl
  rw [this, clenValue, splitCh_append _ (by decide)]
  simp only
  rw [if_pos (by decide)]
  congr 1
  rw [List.dropWhile_cons, if_pos (by decide)]
  apply dropWhile_none
  intro c hc
  exact isDig_not_space (natDec_isDig (List.mem_of_mem_head? hc))

theorem stoull_natDec (n : Nat) (h : n ≤ sizeMax) : stoull (natDec n) = some n := by
  have := stoull_digits (r := []) (natDec_ne_nil n) (fun c hc => natDec_isDig hc) (by simp)
  rw [List.append_nil, digitsVal_natDec, if_neg (by omega)] at this
  exact this

theorem decode_encode {max : Nat} {p : Bytes} (hmax : p.length ≤ max) (hsz : (encode p).length ≤ sizeMax) (rest : Bytes) :
    tryDecodeEx max (encode p ++ rest) = .ok p (encode p).length := by
  have hlen : (encode p).length = (joinLines [lit "Content-Length: " ++ natDec p.length]).length + 4 + p.length := by
    rw [encode_eq]; simp only [List.length_append, show sep.length = 4 from rfl]
  rw [hlen] at hsz ⊢
  rw [encode_eq, List.append_assoc _ p rest,
    tryDecodeEx_lines max _ (by intro l hl; simp at hl; subst hl; exact clen_line_plain _)]
  have hs : scanLines max none [lit "Content-Length: " ++ natDec p.length] = .len (some p.length) := by
    simp only [scanLines, clenValue_encode, stoull_natDec p.length (by omega)]
    rw [if_neg (by omega)]
  rw [hs]
  simp only
  rw [if_neg (by omega), if_neg (by simp)]
  simp

end Verif.Framer
