import Verif.Back.Props

/-!
C134, continued: what `RequestCreateMessage`, `RequestRootsList`, `RequestElicitation` and `Ping` of the server give in terms of the handlers of the client.
-/

namespace Verif.Back

open Verif.Await Verif.Client Verif.Server Verif.Shm
open Verif.Whole (NoValue error_mk)
open Verif.Ask (checked_cases sample_cases)
open Validation (validateElicitationResult)

variable {D H : Type} [DblFmt D]

/-- C134, partial. `RequestCreateMessage` gives null or an error object, or exactly what the sampling handler that the client had at some moment returned, called with exactly the
messages, the model preferences, the system prompt and the context inclusion of this call, and not cancelled. The other handler is used only if there is no first one. Missing: as for
`C134_result_partial`. -/
theorem C134_sampling_partial (c : Cfg) (x : Bool) (s0 : SSelf D) (cli : Cli D H) (ops : List (Op D H)) (hc : Carried c x (World.init c s0 cli) ops) (few : ops.length + 2 < 2 ^ 64) :
    let w := (World.init c s0 cli).run c x ops
    OwnNames w → NoWords (w.net.get (!x)) →
      ∀ (i : Nat) (z : SCall D) (p : SampleReq D) (name : Option Bytes) (res : SOut D), w.server.calls[i]? = some z → z.prog = sbody (.sample p name) → z.st = .over res →
        ∃ v, res = .val (.json v) ∧ (NoValue v ∨ ∃ k q env σ r h, DispatchedAt c x (World.init c s0 cli) ops k q env σ r ∧
          (σ.sampling = some h ∨ σ.sampling = none ∧ σ.samplingCancelable = some h) ∧ env.sample h (sampleView p) = .ret v ∧ env.cancelled = false) := by
  intro w names hw i z p name res hx hprog hst
  rcases result_of c x s0 cli ops hc hw names few i z _ res hx hprog hst with ⟨h, -⟩ | ⟨o, kind, ⟨id, text, ho, -⟩, h⟩ | ⟨k, id, env, σ, r, kind, hd, h, -⟩
  · simp only [declined] at h
    split at h
    · cases h
    · cases h; exact ⟨_, rfl, .inl (.inl rfl)⟩
  · subst ho
    exact ⟨_, h, .inl (.inr (error_mk _ _))⟩
  · refine ⟨_, h, ?_⟩
    obtain ⟨j, -, -, -, -, ha⟩ := _root_.id hd
    rcases sample_cases ha with ⟨h1, code, msg, h2⟩ | ⟨g, v, h1, h2, h3, h4, h5⟩
    · rw [h1, h2]; exact .inl (.inr (error_mk _ _))
    · rw [h4, h5]; exact .inr ⟨k, _, env, σ, r, g, hd, h1, h2, h3⟩

/-- C134, partial. `RequestRootsList` gives an empty list, or exactly the roots that the handler which the client had at some moment returned, in their order, without those whose uri is
empty. It does not throw. Missing: as for `C134_result_partial`. -/
theorem C134_roots_partial (c : Cfg) (x : Bool) (s0 : SSelf D) (cli : Cli D H) (ops : List (Op D H)) (hc : Carried c x (World.init c s0 cli) ops) (few : ops.length + 2 < 2 ^ 64) :
    let w := (World.init c s0 cli).run c x ops
    OwnNames w → NoWords (w.net.get (!x)) →
      ∀ (i : Nat) (z : SCall D) (res : SOut D), w.server.calls[i]? = some z → z.prog = sbody .roots → z.st = .over res →
        ∃ l, res = .val (.roots l) ∧ (l = [] ∨ ∃ k q env σ r h l', DispatchedAt c x (World.init c s0 cli) ops k q env σ r ∧ σ.roots = some h ∧ env.roots h = .ret l' ∧
          l = l'.filter (fun a => decide (a.uri ≠ []))) := by
  intro w names hw i z res hx hprog hst
  rcases result_of c x s0 cli ops hc hw names few i z _ res hx hprog hst with ⟨h, -⟩ | ⟨o, kind, ⟨id, text, ho, -⟩, h⟩ | ⟨k, id, env, σ, r, kind, hd, h, -⟩
  · simp only [declined] at h
    split at h
    · cases h
    · cases h; exact ⟨_, rfl, .inl rfl⟩
  · subst ho
    exact ⟨_, h, .inl rfl⟩
  · obtain ⟨j, -, -, -, -, ha⟩ := _root_.id hd
    rw [onRequest_roots _ _ _ rfl] at ha
    simp only [cliRoots] at ha
    split at ha
    · cases ha; exact ⟨_, h, .inl rfl⟩
    · rename_i g hg
      split at ha
      · cases ha
      · cases ha
      · cases ha; exact ⟨_, h, .inl rfl⟩
      · rename_i l hl
        rcases checked_cases ha with ⟨h1, code, msg, h2⟩ | ⟨h1, h2, -⟩
        · rw [h1, h2] at h; exact ⟨_, h, .inl rfl⟩
        · rw [h1, h2] at h
          refine ⟨l.filter (fun a => decide (a.uri ≠ [])), ?_, .inr ⟨k, _, env, σ, r, g, l, hd, hg, hl, rfl⟩⟩
          rw [h]
          simp only [reports, rootsOf, roots_valid, Bool.not_true, Bool.and_false, Bool.false_eq_true, if_false]
          rw [show (((rootsJson l).arrAt (lit "roots")).getD []) = l.map rootJson from rfl, roots_roundtrip]
          rfl

/-- C134, partial. `RequestElicitation` throws, or gives an empty result, or gives exactly what the handler that the client had at some moment returned, called with exactly the request
of this call. Missing: as for `C134_result_partial`. -/
theorem C134_elicitation_partial (c : Cfg) (x : Bool) (s0 : SSelf D) (cli : Cli D H) (ops : List (Op D H)) (hc : Carried c x (World.init c s0 cli) ops) (few : ops.length + 2 < 2 ^ 64) :
    let w := (World.init c s0 cli).run c x ops
    OwnNames w → NoWords (w.net.get (!x)) →
      ∀ (i : Nat) (z : SCall D) (e : ElicitReq D) (res : SOut D), w.server.calls[i]? = some z → z.prog = sbody (.elicit e) → z.st = .over res →
        res = .val (.elicited ⟨[], none, none⟩) ∨ ∃ k q env σ r h v, DispatchedAt c x (World.init c s0 cli) ops k q env σ r ∧ σ.elicit = some h ∧ env.elicit h e = .ret v ∧
          (res = .val (.elicited v) ∨ (res = .threw ∧ s0.strict = true ∧ ¬ LegalAction v.action)) := by
  intro w names hw i z e res hx hprog hst
  rcases result_of c x s0 cli ops hc hw names few i z _ res hx hprog hst with ⟨h, -⟩ | ⟨o, kind, ⟨id, text, ho, -⟩, h⟩ | ⟨k, id, env, σ, r, kind, hd, h, -⟩
  · simp only [declined, elicitParams_valid, Bool.true_eq_false, and_false, if_false] at h
    split at h
    · cases h
    · cases h; exact .inl rfl
  · subst ho
    exact .inl h
  · obtain ⟨j, -, -, -, -, ha⟩ := _root_.id hd
    rw [onRequest_elicit _ _ _ rfl] at ha
    simp only [cliElicit] at ha
    split at ha
    · cases ha; exact .inl h
    · rename_i g hg
      simp only [enquiry, Option.getD_some, elicitParams_valid, Bool.not_true, Bool.and_false, Bool.false_eq_true, if_false, elicitParams_noTask, elicitSync, elicitOf_params] at ha
      split at ha
      · cases ha
      · cases ha
      · cases ha; exact .inl h
      · rename_i v hv
        rcases checked_cases ha with ⟨h1, code, msg, h2⟩ | ⟨h1, h2, -⟩
        · rw [h1, h2] at h; exact .inl h
        · rw [h1, h2] at h
          refine .inr ⟨k, _, env, σ, r, g, v, hd, hg, hv, ?_⟩
          by_cases hl : s0.strict = true → validateElicitationResult (elicitResJson v) = true
          · left
            rw [h]
            simp only [reports]
            rw [elicitRes_roundtrip v s0.strict id hl]
            rfl
          · right
            have hs : s0.strict = true := Classical.byContradiction fun hn => hl fun hs => absurd hs hn
            have hv' : validateElicitationResult (elicitResJson v) = false := by
              cases hb : validateElicitationResult (elicitResJson v) with
              | false => rfl
              | true => exact absurd (fun _ => hb) hl
            refine ⟨?_, hs, fun hlegal => by rw [elicitRes_valid v hlegal] at hv'; cases hv'⟩
            rw [h]
            simp only [reports, elicitResOf, hs, hv', Bool.not_false, Bool.and_true, if_true]
            rfl

/-- C134, partial. `Ping` of the server does not throw, whatever the client is busy with, unless its request got no answer of the client for one of the reasons named. Missing: as for
`C134_result_partial`. -/
theorem C134_ping_partial (c : Cfg) (x : Bool) (s0 : SSelf D) (cli : Cli D H) (ops : List (Op D H)) (hc : Carried c x (World.init c s0 cli) ops) (few : ops.length + 2 < 2 ^ 64) :
    let w := (World.init c s0 cli).run c x ops
    OwnNames w → NoWords (w.net.get (!x)) →
      ∀ (i : Nat) (z : SCall D) (res : SOut D), w.server.calls[i]? = some z → z.prog = sbody .ping → z.st = .over res →
        res = .val .nothing ∨ ∃ o, Unanswered c x ops (enquiry .ping) o := by
  intro w names hw i z res hx hprog hst
  rcases result_of c x s0 cli ops hc hw names few i z _ res hx hprog hst with ⟨h, -⟩ | ⟨o, kind, h1, -⟩ | ⟨k, id, env, σ, r, kind, hd, h, -⟩
  · simp only [declined] at h
    split at h
    · cases h
    · cases h; exact .inl rfl
  · exact .inr ⟨o, h1⟩
  · obtain ⟨j, -, -, -, -, ha⟩ := _root_.id hd
    have he : (onRequest env σ ⟨id, (enquiry (D := D) .ping).method, (enquiry (D := D) .ping).params⟩).1 = okay id (.obj []) := by
      unfold onRequest
      rw [if_pos (show (enquiry (D := D) .ping).method = lit "ping" from rfl)]
    rw [he] at ha
    cases ha
    rw [h]
    left
    cases hs : s0.strict <;> rfl

end Verif.Back
