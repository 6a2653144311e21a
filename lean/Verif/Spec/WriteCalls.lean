import Verif.Model.Writing
/-! # Hypotheses and vocabulary for the properties of writing -/
namespace AF.Writing
variable {V α γ ε : Type}

/-- The codec makes `bpp` bytes of `fpp` frames; PCM and G.711 work frame by frame; a fresh chunk has room for
one packet. -/
structure WF (c : Cfg V α γ ε) : Prop where
  encode_len : ∀ e fs, fs.length = c.fpp → (c.encode e fs).1.length = c.bpp
  one : c.kind ≠ .block → c.fpp = 1
  junk_len : c.junk.length = c.fpp

/-- The converted frames a call sequence hands over. -/
def handed (conv : V → γ → α) : V → List (Op V γ) → List α
  | _, [] => []
  | v, .write xs :: ops => xs.map (conv v) ++ handed conv v ops
  | v, .sync :: ops => handed conv v ops
  | _, .setFormat v :: ops => handed conv v ops

/-- Positions (in frames) at which `afSyncFile` keeps the place in the file: uncompressed tracks keep it in 32 bits. -/
def Place (c : Cfg V α γ ε) (n : Nat) : Prop := c.kind = .pcm → c.first + n * c.bpp < 2 ^ 31

/-- Where `afSyncFile` may be called: at a position that can be kept (`place`), on a whole number of
packets, and, if assertions are compiled in and updating the header moves the file position (`strict`), not
right after another synchronisation. `n` is the number of frames written so far. -/
def SyncOK (place : Nat → Prop) (fpp : Nat) (strict : Bool) : Nat → Bool → List (Op V γ) → Prop
  | _, ready, [] => ready = true
  | n, _, .write xs :: ops => SyncOK place fpp strict (n + xs.length) true ops
  | n, ready, .sync :: ops => ready = true ∧ n % fpp = 0 ∧ place n ∧ SyncOK place fpp strict n (!strict) ops
  | n, ready, .setFormat _ :: ops => SyncOK place fpp strict n ready ops

end AF.Writing
