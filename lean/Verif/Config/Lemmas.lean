import Verif.Config.Model
import Verif.Framer.Lemmas

/-!
Configuration texts, said without the functions that read them, and what the readers make of them.
-/

namespace Verif.Config

/-! ### Texts -/

/-- The value given last for one of the keys. -/
def lastFor (ks : List Bytes) : List (Bytes × Bytes) → Option Bytes
  | [] => none
  | p :: l =>
    match lastFor ks l with
    | some v => some v
    | none => if p.1 ∈ ks then some p.2 else none

/-- A text made of items with separators before, between and after them, at least one between two items. -/
inductive Spaced (sep : Char → Prop) : List Bytes → Bytes → Prop
  | blank {g : Bytes} : (∀ c ∈ g, sep c) → Spaced sep [] g
  | last {g item : Bytes} : (∀ c ∈ g, sep c) → Spaced sep [item] (g ++ item)
  | item {g item rest : Bytes} {items : List Bytes} {c : Char} : (∀ c ∈ g, sep c) → sep c → Spaced sep items rest →
      Spaced sep (item :: items) (g ++ item ++ c :: rest)

/-- `key=value`. -/
def pairText (p : Bytes × Bytes) : Bytes := p.1 ++ '=' :: p.2

/-- No blank at either end. -/
def Tight (p : Char → Bool) (s : Bytes) : Prop := ∀ c, s.head? = some c ∨ s.getLast? = some c → p c = false

/-- Pieces of a `;`-separated text: each is blank, or a setting with blanks around the key and around the value. -/
inductive HttpPieces : List (Bytes × Bytes) → List Bytes → Prop
  | nil : HttpPieces [] []
  | blank {b : Bytes} {items : List (Bytes × Bytes)} {ps : List Bytes} : (∀ c ∈ b, c = ' ' ∨ c = '\t') → HttpPieces items ps →
      HttpPieces items (b :: ps)
  | setting {b1 b2 b3 b4 k v : Bytes} {items : List (Bytes × Bytes)} {ps : List Bytes} :
      (∀ c ∈ b1 ++ b2 ++ b3 ++ b4, c = ' ' ∨ c = '\t') → Tight isBlank k → Tight isBlank v → ';' ∉ k → '=' ∉ k → ';' ∉ v →
      HttpPieces items ps → HttpPieces ((k, v) :: items) ((b1 ++ k ++ b2 ++ '=' :: (b3 ++ v ++ b4)) :: ps)

/-- A number in decimal digits. -/
inductive Decimal : Bytes → Nat → Prop
  | one {d : Nat} : d < 10 → Decimal [Char.ofNat (48 + d)] d
  | more {s : Bytes} {n d : Nat} : Decimal s n → d < 10 → Decimal (s ++ [Char.ofNat (48 + d)]) (10 * n + d)

/-! ### Folding settings -/

theorem fold_last {σ α : Type} (g : σ → α) (step : σ → Bytes × Bytes → σ) (ks : List Bytes) (val : Bytes → Option α)
    (h : ∀ (s : σ) (p : Bytes × Bytes), g (step s p) = if p.1 ∈ ks then (val p.2).getD (g s) else g s) :
    ∀ (items : List (Bytes × Bytes)) (s : σ),
      (lastFor ks items = none → g (items.foldl step s) = g s) ∧
      (∀ v a, lastFor ks items = some v → val v = some a → g (items.foldl step s) = a) := by
  intro items
  induction items with
  | nil =>
    intro s
    exact ⟨fun _ => rfl, fun v a hv => by cases hv⟩
  | cons p l ih =>
    intro s
    have hs := h s p
    have ih1 := ih (step s p)
    constructor
    · intro hn
      rw [lastFor] at hn
      cases hl : lastFor ks l with
      | some v => rw [hl] at hn; cases hn
      | none =>
        rw [hl] at hn
        by_cases hk : p.1 ∈ ks
        · simp [hk] at hn
        · rw [if_neg hk] at hs
          show g (l.foldl step (step s p)) = _
          rw [ih1.1 hl, hs]
    · intro v a hv ha
      show g (l.foldl step (step s p)) = _
      rw [lastFor] at hv
      cases hl : lastFor ks l with
      | some w =>
        rw [hl] at hv
        exact ih1.2 v a (by rw [hl]; exact hv) ha
      | none =>
        rw [hl] at hv
        by_cases hk : p.1 ∈ ks
        · simp [hk] at hv
          rw [ih1.1 hl, hs, if_pos hk, hv, ha]
          rfl
        · simp [hk] at hv

/-! ### Stdio -/

theorem tokens_sep {g : Bytes} : ∀ (_ : ∀ c ∈ g, isSep c = true) (r : Bytes), tokens [] (g ++ r) = tokens [] r := by
  induction g with
  | nil => intro _ r; rfl
  | cons c g ih =>
    intro h r
    show tokens [] (c :: (g ++ r)) = _
    rw [tokens, if_pos (h c (by simp)), if_pos rfl]
    exact ih (fun x hx => h x (List.mem_cons_of_mem _ hx)) r

theorem tokens_run {w : Bytes} : ∀ (cur : Bytes) (_ : ∀ c ∈ w, isSep c = false) (r : Bytes), tokens cur (w ++ r) = tokens (cur ++ w) r := by
  induction w with
  | nil => intro cur _ r; simp
  | cons c w ih =>
    intro cur h r
    show tokens cur (c :: (w ++ r)) = _
    rw [tokens, if_neg (by simp [h c (by simp)]), ih (cur ++ [c]) (fun x hx => h x (List.mem_cons_of_mem _ hx)) r]
    simp

theorem tokens_spaced {items : List Bytes} {text : Bytes} (h : Spaced (fun c => c = ';' ∨ c = ' ' ∨ c = '\t') items text)
    (hi : ∀ i ∈ items, i ≠ [] ∧ ∀ c ∈ i, isSep c = false) : tokens [] text = items := by
  have sep : ∀ {g : Bytes}, (∀ c ∈ g, c = ';' ∨ c = ' ' ∨ c = '\t') → ∀ c ∈ g, isSep c = true := by
    intro g hg c hc
    rcases hg c hc with h | h | h <;> subst h <;> decide
  induction h with
  | blank hg =>
    have := tokens_sep (sep hg) []
    simpa [tokens] using this
  | @last g item hg =>
    have hi1 := hi item (by simp)
    rw [tokens_sep (sep hg)]
    have := tokens_run [] hi1.2 []
    simp only [List.append_nil, List.nil_append] at this
    rw [this, tokens, if_neg hi1.1]
  | @item g item rest items c hg hc _ ih =>
    have hi1 := hi item (by simp)
    have hcs : isSep c = true := sep (g := [c]) (by simpa using hc) c (by simp)
    rw [List.append_assoc, tokens_sep (sep hg), tokens_run [] hi1.2]
    simp only [List.nil_append]
    rw [tokens, if_pos hcs, if_neg hi1.1, ih (fun i hi' => hi i (List.mem_cons_of_mem _ hi'))]

/-- The settings of a stdio text are applied one by one. -/
theorem createStdio_eq {env : Bytes} {items : List (Bytes × Bytes)} {text : Bytes}
    (h : Spaced (fun c => c = ';' ∨ c = ' ' ∨ c = '\t') (items.map pairText) text)
    (hi : ∀ p ∈ items, '=' ∉ p.1 ∧ ∀ c ∈ p.1 ++ p.2, ¬ (c = ';' ∨ c = ' ' ∨ c = '\t')) :
    createStdio env text = items.foldl (fun c p => c.set p.1 p.2) (StdioCfg.fresh env) := by
  unfold createStdio
  rw [tokens_spaced h]
  · have key : ∀ (l : List (Bytes × Bytes)) (c : StdioCfg), (∀ p ∈ l, '=' ∉ p.1) →
        (l.map pairText).foldl StdioCfg.token c = l.foldl (fun c p => c.set p.1 p.2) c := by
      intro l
      induction l with
      | nil => intro c _; rfl
      | cons p l ih =>
        intro c hl
        show (l.map pairText).foldl StdioCfg.token (c.token (pairText p)) = l.foldl _ (c.set p.1 p.2)
        have : c.token (pairText p) = c.set p.1 p.2 := by
          unfold StdioCfg.token pairText
          rw [splitCh_append _ (hl p (by simp))]
        rw [this]
        exact ih _ (fun q hq => hl q (List.mem_cons_of_mem _ hq))
    exact key items _ (fun p hp => (hi p hp).1)
  · intro i hi'
    obtain ⟨p, hp, rfl⟩ := List.mem_map.1 hi'
    refine ⟨by simp [pairText], fun c hc => ?_⟩
    have hc' : c ∈ p.1 ++ p.2 ∨ c = '=' := by
      simp only [pairText, List.mem_append, List.mem_cons] at hc ⊢
      rcases hc with h | h | h
      · exact Or.inl (Or.inl h)
      · exact Or.inr h
      · exact Or.inl (Or.inr h)
    rcases hc' with h | h
    · have := (hi p hp).2 c h
      simp only [not_or] at this
      simp [isSep, this.1, this.2.1, this.2.2]
    · subst h; decide

/-! ### Pieces -/

theorem pieces_run {ch : Char} {w : Bytes} : ∀ (cur : Bytes), ch ∉ w → ∀ r, pieces ch cur (w ++ r) = pieces ch (cur ++ w) r := by
  induction w with
  | nil => intro cur _ r; simp
  | cons c w ih =>
    intro cur h r
    have h1 : c ≠ ch := fun e => h (by simp [e])
    have h2 : ch ∉ w := fun e => h (List.mem_cons_of_mem _ e)
    show pieces ch cur (c :: (w ++ r)) = _
    rw [pieces, if_neg h1, ih (cur ++ [c]) h2 r]
    simp

theorem pieces_intercalate {ch : Char} : ∀ (ps : List Bytes), ps ≠ [] → (∀ p ∈ ps, ch ∉ p) → pieces ch [] ([ch].intercalate ps) = ps := by
  intro ps
  induction ps with
  | nil => intro h; exact absurd rfl h
  | cons p ps ih =>
    intro _ h
    have hp := h p (by simp)
    cases ps with
    | nil =>
      have := pieces_run [] hp []
      simp only [List.append_nil, List.nil_append] at this
      simp [List.intercalate, List.intersperse, this, pieces]
    | cons q qs =>
      have e : [ch].intercalate (p :: q :: qs) = p ++ ch :: [ch].intercalate (q :: qs) := by
        simp [List.intercalate, List.intersperse]
      rw [e, pieces_run [] hp, pieces, if_pos rfl, ih (by simp) (fun x hx => h x (List.mem_cons_of_mem _ hx))]
      simp

theorem dropWhile_all {p : Char → Bool} {b : Bytes} (h : ∀ c ∈ b, p c = true) (r : Bytes) : (b ++ r).dropWhile p = r.dropWhile p := by
  induction b with
  | nil => rfl
  | cons c b ih =>
    show (c :: (b ++ r)).dropWhile p = _
    rw [List.dropWhile_cons_of_pos (h c (by simp))]
    exact ih (fun x hx => h x (List.mem_cons_of_mem _ hx))

theorem dropWhile_head {p : Char → Bool} {s : Bytes} (h : ∀ c, s.head? = some c → p c = false) : s.dropWhile p = s := by
  cases s with
  | nil => rfl
  | cons c s => exact List.dropWhile_cons_of_neg (by simp [h c rfl])

theorem trim_pad {p : Char → Bool} {a s b : Bytes} (ha : ∀ c ∈ a, p c = true) (hb : ∀ c ∈ b, p c = true) (hs : Tight p s) :
    trim p (a ++ s ++ b) = s := by
  unfold trim
  rw [List.append_assoc, dropWhile_all ha]
  by_cases he : s = []
  · subst he
    have : ([] ++ b : Bytes).dropWhile p = [] := by
      have := dropWhile_all hb []
      simpa using this
    rw [this]; rfl
  · have h1 : (s ++ b).dropWhile p = s ++ b := by
      apply dropWhile_head
      intro c hc
      apply hs c
      left
      cases s with
      | nil => exact absurd rfl he
      | cons x s => exact hc
    rw [h1, List.reverse_append, dropWhile_all (by intro c hc; exact hb c (List.mem_reverse.1 hc))]
    rw [dropWhile_head, List.reverse_reverse]
    intro c hc
    apply hs c
    right
    rw [List.head?_reverse] at hc
    exact hc

theorem trim_tight {p : Char → Bool} {s : Bytes} (hs : Tight p s) : trim p s = s := by
  have := trim_pad (a := []) (b := []) (p := p) (s := s) (by simp) (by simp) hs
  simpa using this

theorem trim_blank {p : Char → Bool} {b : Bytes} (h : ∀ c ∈ b, p c = true) : trim p b = [] := by
  have := trim_pad (a := b) (b := []) (s := []) h (by simp) (by intro c hc; simp at hc)
  simpa using this

theorem isBlank_of {b : Bytes} (h : ∀ c ∈ b, c = ' ' ∨ c = '\t') : ∀ c ∈ b, isBlank c = true := by
  intro c hc
  rcases h c hc with h | h <;> subst h <;> decide

/-- A padded setting is read as written. -/
theorem piece_setting {b1 b2 b3 b4 k v : Bytes} (o : HttpCfg) (hb : ∀ c ∈ b1 ++ b2 ++ b3 ++ b4, c = ' ' ∨ c = '\t')
    (hk : Tight isBlank k) (hv : Tight isBlank v) (hek : '=' ∉ k) :
    o.piece (b1 ++ k ++ b2 ++ '=' :: (b3 ++ v ++ b4)) = o.set k v := by
  have hB := isBlank_of hb
  have m1 : ∀ c ∈ b1, isBlank c = true := fun c hc => hB c (by simp [hc])
  have m2 : ∀ c ∈ b2, isBlank c = true := fun c hc => hB c (by simp [hc])
  have m3 : ∀ c ∈ b3, isBlank c = true := fun c hc => hB c (by simp [hc])
  have m4 : ∀ c ∈ b4, isBlank c = true := fun c hc => hB c (by simp [hc])
  have noeq : ∀ {b : Bytes}, (∀ c ∈ b, isBlank c = true) → '=' ∉ b := by
    intro b h e
    have := h _ e
    exact absurd this (by decide)
  -- what the outer trim leaves
  obtain ⟨a, r, hcut, ha, hr⟩ : ∃ a r, trim isBlank (b1 ++ k ++ b2 ++ '=' :: (b3 ++ v ++ b4)) = a ++ '=' :: r ∧
      (a = k ++ b2 ∨ (k = [] ∧ a = [])) ∧ (r = b3 ++ v ∨ (v = [] ∧ r = [])) := by
    by_cases hke : k = []
    · by_cases hve : v = []
      · subst hke; subst hve
        refine ⟨[], [], ?_, Or.inr ⟨rfl, rfl⟩, Or.inr ⟨rfl, rfl⟩⟩
        have := trim_pad (p := isBlank) (a := b1 ++ b2) (s := ['=']) (b := b3 ++ b4)
          (by intro c hc; rcases List.mem_append.1 hc with h | h; exact m1 c h; exact m2 c h)
          (by intro c hc; rcases List.mem_append.1 hc with h | h; exact m3 c h; exact m4 c h)
          (by intro c hc; simp at hc; subst hc; decide)
        simpa using this
      · subst hke
        refine ⟨[], b3 ++ v, ?_, Or.inr ⟨rfl, rfl⟩, Or.inl rfl⟩
        have := trim_pad (p := isBlank) (a := b1 ++ b2) (s := '=' :: (b3 ++ v)) (b := b4)
          (by intro c hc; rcases List.mem_append.1 hc with h | h; exact m1 c h; exact m2 c h) m4
          (by
            intro c hc
            rcases hc with hc | hc
            · simp at hc; subst hc; decide
            · apply hv c; right
              rw [List.getLast?_cons, List.getLast?_append] at hc
              cases hvl : v.getLast? with
              | none => exact absurd (List.getLast?_eq_none_iff.1 hvl) hve
              | some x => rw [hvl] at hc; simpa using hc)
        simpa using this
    · by_cases hve : v = []
      · subst hve
        refine ⟨k ++ b2, [], ?_, Or.inl rfl, Or.inr ⟨rfl, rfl⟩⟩
        have := trim_pad (p := isBlank) (a := b1) (s := k ++ b2 ++ ['=']) (b := b3 ++ b4) m1
          (by intro c hc; rcases List.mem_append.1 hc with h | h; exact m3 c h; exact m4 c h)
          (by
            intro c hc
            rcases hc with hc | hc
            · apply hk c; left
              cases k with
              | nil => exact absurd rfl hke
              | cons x k => simpa using hc
            · simp at hc; subst hc; decide)
        simpa using this
      · refine ⟨k ++ b2, b3 ++ v, ?_, Or.inl rfl, Or.inl rfl⟩
        have := trim_pad (p := isBlank) (a := b1) (s := k ++ b2 ++ '=' :: (b3 ++ v)) (b := b4) m1 m4
          (by
            intro c hc
            rcases hc with hc | hc
            · apply hk c; left
              cases k with
              | nil => exact absurd rfl hke
              | cons x k => simpa using hc
            · apply hv c; right
              rw [List.getLast?_append, List.getLast?_cons, List.getLast?_append] at hc
              cases hvl : v.getLast? with
              | none => exact absurd (List.getLast?_eq_none_iff.1 hvl) hve
              | some x => rw [hvl] at hc; simpa using hc)
        simpa using this
  have hane : '=' ∉ a := by
    rcases ha with rfl | ⟨_, rfl⟩
    · intro e
      rcases List.mem_append.1 e with h | h
      · exact hek h
      · exact noeq m2 h
    · simp
  have ta : trim isBlank a = k := by
    rcases ha with rfl | ⟨rfl, rfl⟩
    · have := trim_pad (p := isBlank) (a := []) (b := b2) (s := k) (by simp) m2 hk
      simpa using this
    · rfl
  have tr : trim isBlank r = v := by
    rcases hr with rfl | ⟨rfl, rfl⟩
    · have := trim_pad (p := isBlank) (a := b3) (b := []) (s := v) m3 (by simp) hv
      simpa using this
    · rfl
  unfold HttpCfg.piece
  rw [hcut, splitCh_append _ hane]
  show o.set (trim isBlank a) (trim isBlank r) = _
  rw [ta, tr]

theorem pieces_fold {items : List (Bytes × Bytes)} {ps : List Bytes} (h : HttpPieces items ps) :
    ∀ o : HttpCfg, ps.foldl HttpCfg.piece o = items.foldl (fun o p => o.set p.1 p.2) o := by
  induction h with
  | nil => intro o; rfl
  | @blank b items ps hb _ ih =>
    intro o
    show ps.foldl HttpCfg.piece (o.piece b) = _
    have : o.piece b = o := by
      unfold HttpCfg.piece
      rw [trim_blank (isBlank_of hb)]; rfl
    rw [this]; exact ih o
  | @setting b1 b2 b3 b4 k v items ps hb hk hv _ hek _ _ ih =>
    intro o
    show ps.foldl HttpCfg.piece (o.piece _) = items.foldl _ (o.set k v)
    rw [piece_setting o hb hk hv hek]
    exact ih _

theorem pieces_nosep {items : List (Bytes × Bytes)} {ps : List Bytes} (h : HttpPieces items ps) : ∀ p ∈ ps, ';' ∉ p := by
  have bl : ∀ {b : Bytes}, (∀ c ∈ b, c = ' ' ∨ c = '\t') → ';' ∉ b := by
    intro b hb e
    rcases hb _ e with h | h <;> exact absurd h (by decide)
  induction h with
  | nil => intro p hp; cases hp
  | blank hb _ ih =>
    intro p hp
    rcases List.mem_cons.1 hp with rfl | hp
    · exact bl hb
    · exact ih p hp
  | @setting b1 b2 b3 b4 k v items ps hb _ _ hsk _ hsv _ ih =>
    intro p hp
    rcases List.mem_cons.1 hp with rfl | hp
    · have hb' := bl hb
      simp only [List.mem_append, List.mem_cons, not_or] at hb' ⊢
      exact ⟨⟨⟨hb'.1.1.1, hsk⟩, hb'.1.1.2⟩, by decide, ⟨hb'.1.2, hsv⟩, hb'.2⟩
    · exact ih p hp

/-- The settings of a `;`-separated text are applied one by one. -/
theorem createHttp_eq {items : List (Bytes × Bytes)} {ps : List Bytes} (h : HttpPieces items ps) :
    createHttp ([';'].intercalate ps) = items.foldl (fun o p => o.set p.1 p.2) {} := by
  unfold createHttp
  by_cases hp : ps = []
  · subst hp
    cases h
    decide
  · rw [pieces_intercalate ps hp (pieces_nosep h)]
    exact pieces_fold h _

/-! ### Numbers -/

theorem digit_val {d : Nat} (h : d < 10) : isDig (Char.ofNat (48 + d)) = true ∧ digVal (Char.ofNat (48 + d)) = d := by
  have : d = 0 ∨ d = 1 ∨ d = 2 ∨ d = 3 ∨ d = 4 ∨ d = 5 ∨ d = 6 ∨ d = 7 ∨ d = 8 ∨ d = 9 := by omega
  rcases this with h | h | h | h | h | h | h | h | h | h <;> subst h <;> decide

theorem digitsVal_snoc (s : Bytes) (c : Char) : digitsVal (s ++ [c]) = digitsVal s * 10 + digVal c := by
  simp [digitsVal, List.foldl_append]

theorem decimal_iff {s : Bytes} {n : Nat} : Decimal s n ↔ s ≠ [] ∧ (∀ c ∈ s, isDig c = true) ∧ digitsVal s = n := by
  constructor
  · intro h
    induction h with
    | one hd =>
      refine ⟨by simp, ?_, ?_⟩
      · intro c hc; simp at hc; subst hc; exact (digit_val hd).1
      · simp [digitsVal, (digit_val hd).2]
    | more _ hd ih =>
      refine ⟨by simp, ?_, ?_⟩
      · intro c hc
        rcases List.mem_append.1 hc with h | h
        · exact ih.2.1 c h
        · simp at h; subst h; exact (digit_val hd).1
      · rw [digitsVal_snoc, ih.2.2, (digit_val hd).2]; omega
  · rintro ⟨hne, hd, hv⟩
    have char : ∀ c, isDig c = true → ∃ d, d < 10 ∧ c = Char.ofNat (48 + d) ∧ digVal c = d := by
      intro c hc
      simp only [isDig, decide_eq_true_eq] at hc
      have h0 : '0'.toNat = 48 := rfl
      have h9 : '9'.toNat = 57 := rfl
      rw [h0, h9] at hc
      refine ⟨c.toNat - 48, by omega, ?_, rfl⟩
      have : 48 + (c.toNat - 48) = c.toNat := by omega
      rw [this, Char.ofNat_toNat]
    have key : ∀ m (s : Bytes), s.length = m → s ≠ [] → (∀ c ∈ s, isDig c = true) → Decimal s (digitsVal s) := by
      intro m
      induction m with
      | zero => intro s hs hne _; exact absurd (List.length_eq_zero_iff.1 hs) hne
      | succ m ih =>
        intro s hs hne hd
        obtain ⟨t, c, rfl⟩ : ∃ t c, s = t ++ [c] := ⟨s.dropLast, s.getLast hne, (List.dropLast_concat_getLast hne).symm⟩
        obtain ⟨d, hdl, hc, hdv⟩ := char c (hd c (by simp))
        rw [digitsVal_snoc, hdv, hc]
        by_cases ht : t = []
        · subst ht
          have := Decimal.one hdl
          simpa [digitsVal] using this
        · have h1 := ih t (by simpa using hs) ht (fun x hx => hd x (by simp [hx]))
          have := Decimal.more h1 hdl
          rwa [Nat.mul_comm] at this
    rw [← hv]
    exact key _ s rfl hne hd

theorem stoull_decimal {s : Bytes} {n : Nat} (h : Decimal s n) : Framer.stoull s = if n > Framer.sizeMax then none else some n := by
  obtain ⟨hne, hd, hv⟩ := decimal_iff.1 h
  have := Framer.stoull_digits (r := []) hne hd (by simp)
  rw [List.append_nil] at this
  rw [this, hv]

end Verif.Config
