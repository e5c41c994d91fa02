import Verif.Ask.Props
import Verif.Client.RequestProps

/-!
C130, continued: what `RequestCreateMessage`, `RequestRootsList`, `RequestElicitation` and `Ping` of the server give in terms of the handlers of the client.
-/

namespace Verif.Ask

open Verif.Await Verif.Client Verif.Server Verif.InMemory
open Verif.Whole (NoValue error_mk)
open Verif.Near (Unanswered)
open Validation (validateElicitationResult)

variable {D H : Type} [DblFmt D]

theorem checked_cases {strict : Bool} {valid : JVal D → Bool} {msg : Bytes} {id : RpcId} {v : JVal D} {r : Response D} (h : checked strict valid msg id v = .answer r) :
    (r.result = none ∧ ∃ code msg, r.error = some (mkErrorObj code msg none)) ∨ (r.result = some v ∧ r.error = none ∧ (strict = true → valid v = true)) := by
  unfold checked at h
  split at h
  · cases h; exact .inl ⟨rfl, _, _, rfl⟩
  · rename_i hn
    cases h
    exact .inr ⟨rfl, rfl, fun hs => by simpa [hs] using hn⟩

/-- What `sampling/createMessage` of the client answers when no task is asked for. -/
theorem sample_cases {env : CliEnv D H} {σ : Cli D H} {id : RpcId} {p : SampleReq D} {r : Response D}
    (h : (onRequest env σ ⟨id, lit "sampling/createMessage", some (.obj (sampleParams p))⟩).1 = .answer r) :
    (r.result = none ∧ ∃ code msg, r.error = some (mkErrorObj code msg none)) ∨
    ∃ h v, (σ.sampling = some h ∨ σ.sampling = none ∧ σ.samplingCancelable = some h) ∧ env.sample h (sampleView p) = .ret v ∧ env.cancelled = false ∧
      r.result = some v ∧ r.error = none := by
  rw [onRequest_sample _ _ _ rfl] at h
  have ha : sampleArgs (some (.obj (sampleParams p))) = sampleView p := by
    have := sampleArgs_params p [] rfl rfl rfl
    rwa [List.append_nil] at this
  simp only [cliSample, sampleParams_noTask, sampleSync, ha] at h
  split at h
  · cases h; exact .inl ⟨rfl, _, _, rfl⟩
  · rename_i k hk
    have hk' : σ.sampling = some k ∨ σ.sampling = none ∧ σ.samplingCancelable = some k := by
      unfold Cli.sampler at hk
      split at hk
      · cases hk; exact .inl (by assumption)
      · exact .inr ⟨by assumption, hk⟩
    split at h
    · cases h; exact .inl ⟨rfl, _, _, rfl⟩
    · split at h
      · cases h
      · cases h
      · cases h; exact .inl ⟨rfl, _, _, rfl⟩
      · rename_i v hv
        split at h
        · cases h; exact .inl ⟨rfl, _, _, rfl⟩
        · rename_i hc
          rcases checked_cases h with h | ⟨h1, h2, -⟩
          · exact .inl h
          · exact .inr ⟨k, v, hk', hv, by simpa using hc, h1, h2⟩

/-- C130, partial. `RequestCreateMessage` gives null or an error object, or exactly what the sampling handler that the client had at some moment returned, called with exactly the
messages, the model preferences, the system prompt and the context inclusion of this call, and not cancelled. The other handler is used only if there is no first one. Missing: as for
`C130_result_partial`. -/
theorem C130_sampling_partial (s0 : SSelf D) (cli : Cli D H) (ops : List (Op D H)) (hc : Carried (World.init s0 cli) ops) :
    let w := (World.init s0 cli).run ops
    OwnNames w → w.server.cells.length < 2 ^ 32 →
      ∀ (i : Nat) (x : SCall D) (p : SampleReq D) (name : Option Bytes) (res : SOut D), w.server.calls[i]? = some x → x.prog = sbody (.sample p name) → x.st = .over res →
        ∃ v, res = .val (.json v) ∧ (NoValue v ∨ ∃ k q env σ r h, DispatchedAt (World.init s0 cli) ops k q env σ r ∧
          (σ.sampling = some h ∨ σ.sampling = none ∧ σ.samplingCancelable = some h) ∧ env.sample h (sampleView p) = .ret v ∧ env.cancelled = false) := by
  intro w names few i x p name res hx hprog hst
  rcases result_of s0 cli ops hc names few i x _ res hx hprog hst with ⟨h, -⟩ | ⟨o, kind, op, ⟨id, text, -, ho⟩, -, -, h⟩ | ⟨k, id, env, σ, r, kind, hd, h, -⟩
  · simp only [declined] at h
    split at h
    · cases h
    · cases h; exact ⟨_, rfl, .inl (.inl rfl)⟩
  · subst ho
    exact ⟨_, h, .inl (.inr (error_mk _ _))⟩
  · refine ⟨_, h, ?_⟩
    obtain ⟨j, -, -, -, -, ha⟩ := _root_.id hd
    rcases sample_cases ha with ⟨h1, code, msg, h2⟩ | ⟨g, v, h1, h2, h3, h4, h5⟩
    · rw [h1, h2]; exact .inl (.inr (error_mk _ _))
    · rw [h4, h5]; exact .inr ⟨k, _, env, σ, r, g, hd, h1, h2, h3⟩

/-- C130, partial. `RequestRootsList` gives an empty list, or exactly the roots that the handler which the client had at some moment returned, in their order, without those whose uri is
empty. It does not throw. Missing: as for `C130_result_partial`. -/
theorem C130_roots_partial (s0 : SSelf D) (cli : Cli D H) (ops : List (Op D H)) (hc : Carried (World.init s0 cli) ops) :
    let w := (World.init s0 cli).run ops
    OwnNames w → w.server.cells.length < 2 ^ 32 →
      ∀ (i : Nat) (x : SCall D) (res : SOut D), w.server.calls[i]? = some x → x.prog = sbody .roots → x.st = .over res →
        ∃ l, res = .val (.roots l) ∧ (l = [] ∨ ∃ k q env σ r h l', DispatchedAt (World.init s0 cli) ops k q env σ r ∧ σ.roots = some h ∧ env.roots h = .ret l' ∧
          l = l'.filter (fun a => decide (a.uri ≠ []))) := by
  intro w names few i x res hx hprog hst
  rcases result_of s0 cli ops hc names few i x _ res hx hprog hst with ⟨h, -⟩ | ⟨o, kind, op, ⟨id, text, -, ho⟩, -, -, h⟩ | ⟨k, id, env, σ, r, kind, hd, h, -⟩
  · simp only [declined] at h
    split at h
    · cases h
    · cases h; exact ⟨_, rfl, .inl rfl⟩
  · subst ho
    exact ⟨_, h, .inl rfl⟩
  · obtain ⟨j, -, -, -, -, ha⟩ := _root_.id hd
    rw [onRequest_roots _ _ _ rfl] at ha
    simp only [cliRoots] at ha
    split at ha
    · cases ha; exact ⟨_, h, .inl rfl⟩
    · rename_i g hg
      split at ha
      · cases ha
      · cases ha
      · cases ha; exact ⟨_, h, .inl rfl⟩
      · rename_i l hl
        rcases checked_cases ha with ⟨h1, code, msg, h2⟩ | ⟨h1, h2, -⟩
        · rw [h1, h2] at h; exact ⟨_, h, .inl rfl⟩
        · rw [h1, h2] at h
          refine ⟨l.filter (fun a => decide (a.uri ≠ [])), ?_, .inr ⟨k, _, env, σ, r, g, l, hd, hg, hl, rfl⟩⟩
          rw [h]
          simp only [reports, rootsOf, roots_valid, Bool.not_true, Bool.and_false, Bool.false_eq_true, if_false]
          rw [show (((rootsJson l).arrAt (lit "roots")).getD []) = l.map rootJson from rfl, roots_roundtrip]
          rfl

/-- C130, partial. `RequestElicitation` throws, or gives an empty result, or gives exactly what the handler that the client had at some moment returned, called with exactly the request
of this call. Missing: as for `C130_result_partial`. -/
theorem C130_elicitation_partial (s0 : SSelf D) (cli : Cli D H) (ops : List (Op D H)) (hc : Carried (World.init s0 cli) ops) :
    let w := (World.init s0 cli).run ops
    OwnNames w → w.server.cells.length < 2 ^ 32 →
      ∀ (i : Nat) (x : SCall D) (e : ElicitReq D) (res : SOut D), w.server.calls[i]? = some x → x.prog = sbody (.elicit e) → x.st = .over res →
        res = .val (.elicited ⟨[], none, none⟩) ∨ ∃ k q env σ r h v, DispatchedAt (World.init s0 cli) ops k q env σ r ∧ σ.elicit = some h ∧ env.elicit h e = .ret v ∧
          (res = .val (.elicited v) ∨ (res = .threw ∧ s0.strict = true ∧ ¬ LegalAction v.action)) := by
  intro w names few i x e res hx hprog hst
  rcases result_of s0 cli ops hc names few i x _ res hx hprog hst with ⟨h, -⟩ | ⟨o, kind, op, ⟨id, text, -, ho⟩, -, -, h⟩ | ⟨k, id, env, σ, r, kind, hd, h, -⟩
  · simp only [declined, elicitParams_valid, Bool.true_eq_false, and_false, if_false] at h
    split at h
    · cases h
    · cases h; exact .inl rfl
  · subst ho
    exact .inl h
  · obtain ⟨j, -, -, -, -, ha⟩ := _root_.id hd
    rw [onRequest_elicit _ _ _ rfl] at ha
    simp only [cliElicit] at ha
    split at ha
    · cases ha; exact .inl h
    · rename_i g hg
      simp only [enquiry, Option.getD_some, elicitParams_valid, Bool.not_true, Bool.and_false, Bool.false_eq_true, if_false, elicitParams_noTask, elicitSync, elicitOf_params] at ha
      split at ha
      · cases ha
      · cases ha
      · cases ha; exact .inl h
      · rename_i v hv
        rcases checked_cases ha with ⟨h1, code, msg, h2⟩ | ⟨h1, h2, -⟩
        · rw [h1, h2] at h; exact .inl h
        · rw [h1, h2] at h
          refine .inr ⟨k, _, env, σ, r, g, v, hd, hg, hv, ?_⟩
          by_cases hl : s0.strict = true → validateElicitationResult (elicitResJson v) = true
          · left
            rw [h]
            simp only [reports]
            rw [elicitRes_roundtrip v s0.strict id hl]
            rfl
          · right
            have hs : s0.strict = true := Classical.byContradiction fun hn => hl fun hs => absurd hs hn
            have hv' : validateElicitationResult (elicitResJson v) = false := by
              cases hb : validateElicitationResult (elicitResJson v) with
              | false => rfl
              | true => exact absurd (fun _ => hb) hl
            refine ⟨?_, hs, fun hlegal => by rw [elicitRes_valid v hlegal] at hv'; cases hv'⟩
            rw [h]
            simp only [reports, elicitResOf, hs, hv', Bool.not_false, Bool.and_true, if_true]
            rfl

/-- C130, partial. `Ping` of the server does not throw, whatever the client is busy with, unless a transport was closed. Missing: as for `C130_result_partial`. -/
theorem C130_ping_partial (s0 : SSelf D) (cli : Cli D H) (ops : List (Op D H)) (hc : Carried (World.init s0 cli) ops) (hopen : ∀ op, Op.wire op ∈ ops → StaysOpen op) :
    let w := (World.init s0 cli).run ops
    OwnNames w → w.server.cells.length < 2 ^ 32 →
      ∀ (i : Nat) (x : SCall D) (res : SOut D), w.server.calls[i]? = some x → x.prog = sbody .ping → x.st = .over res → res = .val .nothing := by
  intro w names few i x res hx hprog hst
  rcases result_of s0 cli ops hc names few i x _ res hx hprog hst with ⟨h, -⟩ | ⟨o, kind, op, -, h1, h2, -⟩ | ⟨k, id, env, σ, r, kind, hd, h, -⟩
  · simp only [declined] at h
    split at h
    · cases h
    · cases h; rfl
  · exact absurd (hopen op h1) h2
  · obtain ⟨j, -, -, -, -, ha⟩ := _root_.id hd
    have he : (onRequest env σ ⟨id, (enquiry (D := D) .ping).method, (enquiry (D := D) .ping).params⟩).1 = okay id (.obj []) := by
      unfold onRequest
      rw [if_pos (show (enquiry (D := D) .ping).method = lit "ping" from rfl)]
    rw [he] at ha
    cases ha
    rw [h]
    cases hs : s0.strict <;> rfl

end Verif.Ask
