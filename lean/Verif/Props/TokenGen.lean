import Verif.Proof.TokenGen
import Verif.Props.Access

/-!
# Generated tokens (C137)

`tokenNew draws = some line`: `abq token new` prints `line` when its generator draws the words `draws` (or more).
-/

namespace Abq.Props
open Abq.Auth Abq.Spec.TokenGen Abq.TokenGenProof
open Abq.Access (Library StartArgs startOptions ClientOptions ServerOptions ownOptions clientOptions)
open Abq.Spec.Access (SameTls)
open Abq.Wire (Byte)

theorem newRandom_token {draws : List Nat} {t : List Byte} (h : newRandom draws = some t) : IsToken t :=
  fill_letters 30 draws t h

/-- **C137.** What is printed is `abqs_` and thirty letters and digits, whatever is drawn; it is taken as a user's token wherever one is
asked for, and never as an admin's. -/
theorem C137_printed (draws : List Nat) (line : List Byte) (h : tokenNew draws = some line) :
    ∃ t, IsToken t ∧ line = ascii "abqs_" ++ t ∧ parseUser line = some t ∧ parseAdmin line = none := by
  cases hn : newRandom draws with
  | none => rw [tokenNew, hn] at h; cases h
  | some t =>
    rw [tokenNew, hn] at h; cases h
    have ht := newRandom_token hn
    refine ⟨t, ht, ?_, (C38_round_trip t ht).1, ?_⟩
    · rw [← C38_prefixes.1]; rfl
    · cases hp : parseAdmin (displayUser t) with
      | none => rfl
      | some t' => exact absurd (C38_never_confused _ _ _ (C38_round_trip t ht).1 hp) id

/-- **C137.** A token is printed as soon as thirty of the words drawn are ones that choose a character: all but two of 64. -/
theorem C137_comes (draws : List Nat) : (∃ line, tokenNew draws = some line) ↔ 30 ≤ draws.countP (· < 62 * 2 ^ 26) := by
  rw [← fill_some 30 draws]
  unfold tokenNew newRandom tokenLen
  cases fill 30 draws <;> simp

/-- **C137.** The token that was printed can be used: a queue that is started with it (and with any token for admins) reads the requests
of a client that is given it, all and in order. -/
theorem C137_usable {T : Type} (c : Wire.Codec T) (hc : c.Lawful) (z : Bool) (lib : Library) (draws : List Nat) (line : List Byte)
    (h : tokenNew draws = some line) (a : StartArgs) (ha : a.userToken = parseUser line)
    (hadmin : ∀ t, a.adminToken = some t → ∃ s, parseAdmin s = some t) (so : ServerOptions) (hs : startOptions lib a = .ok so)
    (o : ClientOptions) (ho : ∀ t, parseUser line = some t → o.auth = .token t) (hl : SameTls lib a o) (ms : List T)
    (hf : ∀ m ∈ ms, Wire.Fits c z m) (ks : List Nat) (hk : ∀ k ∈ ks, k ≠ 0) (hlen : (Wire.frames c z ms).length ≤ ks.length) :
    so.reads c (o.sends lib (so.proves lib) (Wire.frames c z ms)) (ks.map .read) = ms.map fun m => (m, (Wire.body c z m).length) := by
  obtain ⟨t, ht, -, hp, -⟩ := C137_printed draws line h
  have ho := ho t hp
  rw [hp] at ha
  refine C128_alike c hc z lib a ⟨?_, ?_⟩ so hs o ?_ hl ms hf ks hk hlen
  · intro t' h'; rw [ha] at h'; cases h'; exact ht
  · intro t' h'
    obtain ⟨s, hs⟩ := hadmin t' h'
    exact ((C38_what_parses_partial s t').2.1 hs).1
  · unfold Spec.Access.SameToken Spec.Access.tokenOf
    rw [ho]
    exact .inl ha

/-- **C137.** The queue that `abq test` starts for itself, with whatever token is generated for admins, reads the requests of this
`abq test`, if the certificate it was given is one that a client accepts. -/
theorem C137_own_queue {T : Type} (c : Wire.Codec T) (hc : c.Lawful) (z : Bool) (lib : Library) (w : Config.World)
    (hlib : w.tls = lib.toTls) (a : Config.TestArgs) (p : Config.TestPlan) (h : Config.testPlan w a = .ok p)
    (ut : Option (List Byte)) (ck : Option (List Nat × List Nat)) (hq : p.connection.queue = .inProcess ut ck)
    (hm : ∀ cert key, ck = some (cert, key) → lib.meets cert key cert = true) (draws : List Nat) (fresh : List Byte)
    (hfr : newRandom draws = some fresh) (hut : ∀ t, ut = some t → ∃ s, parseUser s = some t) (ms : List T)
    (hf : ∀ m ∈ ms, Wire.Fits c z m) (ks : List Nat) (hk : ∀ k ∈ ks, k ≠ 0) (hlen : (Wire.frames c z ms).length ≤ ks.length) :
    (ownOptions fresh ut ck).reads c
      ((clientOptions p.connection).sends lib ((ownOptions fresh ut ck).proves lib) (Wire.frames c z ms)) (ks.map .read) =
      ms.map fun m => (m, (Wire.body c z m).length) :=
  C128_own_queue c hc z lib w hlib a p h ut ck hq hm fresh (newRandom_token hfr)
    (fun t ht => let ⟨s, hs⟩ := hut t ht; ((C38_what_parses_partial s t).1.1 hs).1) ms hf ks hk hlen

/-- **C137.** No token is likelier than another: of any two, as many sequences of words of any given length give the one as give the
other. -/
theorem C137_none_likelier (t t' : List Byte) (h : IsToken t) (h' : IsToken t') :
    ∃ f, Renaming f ∧ ∀ draws, tokenNew draws = some (ascii "abqs_" ++ t) ↔ tokenNew (f draws) = some (ascii "abqs_" ++ t') := by
  obtain ⟨is, hi, rfl⟩ := indices t h.2
  obtain ⟨js, hj, rfl⟩ := indices t' h'.2
  have li : is.length = 30 := by simpa using h.1
  have lj : js.length = 30 := by simpa using h'.1
  refine ⟨rename (is.zip js), rename_renaming _ ?_, fun draws => ?_⟩
  · rintro ⟨i, j⟩ hp
    exact ⟨hi i (List.of_mem_zip hp).1, hj j (List.of_mem_zip hp).2⟩
  · have key := rename_fill is js (li.trans lj.symm) hi hj draws
    rw [li] at key
    have e : ∀ ds s, tokenNew ds = some (ascii "abqs_" ++ s) ↔ fill 30 ds = some s := by
      intro ds s
      rw [← C38_prefixes.1]
      unfold tokenNew newRandom tokenLen displayUser display
      cases fill 30 ds <;> simp
    rw [e, e]
    exact key

/-- Words that choose the characters `K`, `9`, `a`, and one that chooses none. -/
def sampleDraws : List Nat := (64 * 2 ^ 26 - 1) :: (List.replicate 10 (10 * 2 ^ 26) ++ List.replicate 10 (62 * 2 ^ 26 - 1) ++
  List.replicate 10 (26 * 2 ^ 26 + 5))

example : tokenNew sampleDraws = some (ascii "abqs_KKKKKKKKKK9999999999aaaaaaaaaa") := by decide
example : tokenNew (sampleDraws.take 30) = none := by decide
example : IsToken (ascii "KKKKKKKKKK9999999999aaaaaaaaaa") ∧ IsToken sampleToken :=
  ⟨newRandom_token (draws := sampleDraws) (by decide), sampleToken_ok⟩

end Abq.Props
