import Verif.Gcd.IoModel
import Verif.Gcd.Alloc
/-!
C21: the I/O space. `Io.map` is the map a caller sees; before the first call it is all of the address space, non-existent.
-/
namespace Verif.Gcd

/-- The arguments of the call are `usize` values. -/
def IoOp.InRange : IoOp → Prop
  | .add _ base len => base < W ∧ len < W
  | .remove base len => base < W ∧ len < W
  | .allocate at_ _ shift len _ _ => len < W ∧ shift < 64 ∧
      (match at_ with | .bottomUp (some m) => m < W | .topDown (some m) => m < W | .address a => a < W | _ => True)
  | .free base len => base < W ∧ len < W
  | .descriptors => True

/-- `g` can be reached from a space initialised for some address width by some history of calls. -/
def IoReachable (g : Io) : Prop := ∃ bits ops, (∀ op ∈ ops, IoOp.InRange op) ∧ g = (Io.start bits).run ops

/-- The map reported by `get_io_descriptors`. -/
def Io.map (g : Io) : List (Block IoCell) := g.ready.blocks

/-- The table has room for two more blocks. -/
def Io.Room (g : Io) : Prop := g.map.length + 2 ≤ 4096

structure IoInv (g : Io) : Prop where
  pos : 0 < g.max
  lt : g.max ≤ 2 ^ 63
  map : (g.cap = 0 ∧ g.blocks = []) ∨ (g.cap = SLOTS ∧ Good g.blocks g.max ∧ g.blocks.length ≤ SLOTS)
  cells : ∀ a c, cellAt g.blocks a = some c → c.allocated = true → c.type ≠ .nonExistent ∧ c.image ≠ 0

theorem IoInv.ltW {g : Io} (h : IoInv g) : g.max < W := by
  have := h.lt
  unfold W; omega

theorem ready_max (g : Io) : g.ready.max = g.max := by unfold Io.ready; split <;> rfl

theorem ready_ready {g : Io} (h : g.cap = SLOTS) : g.ready = g := by unfold Io.ready; rw [if_neg (by rw [h]; decide)]

theorem ready_inv {g : Io} (h : IoInv g) : IoInv g.ready ∧ g.ready.cap = SLOTS ∧ Good g.ready.blocks g.max := by
  rcases h.map with ⟨hc, hb⟩ | ⟨hc, hg, hl⟩
  · have : g.ready = { g with cap := SLOTS, blocks := [⟨0, g.max, emptyIoCell⟩] } := by unfold Io.ready; rw [if_pos hc]
    rw [this]
    have hg : Good [(⟨0, g.max, emptyIoCell⟩ : Block IoCell)] g.max := ⟨⟨rfl, h.pos, by simp [Tiles]⟩, trivial⟩
    refine ⟨⟨h.pos, h.lt, .inr ⟨rfl, hg, by simp [SLOTS]⟩, ?_⟩, rfl, hg⟩
    intro a c hc ha
    simp only [cellAt] at hc
    split at hc
    · injection hc with hc; subst hc; cases ha
    · cases hc
  · rw [ready_ready hc]; exact ⟨h, hc, hg⟩

/-- How a call on the range `[base, base + len)` can end; `map` is always that of the state before the call. -/
inductive IoEffect (g : Io) (base len : Nat) (tr : IoCell → Option IoCell) : IoRet Unit → Prop
  | ok (c c' : IoCell) (g' : Io) : Uniform g.map base len c → tr c = some c' → Updated g.map g'.map base len c' → g'.max = g.max →
      IoInv g' → IoEffect g base len tr (.ok (), g')
  | err (e : EfiError) (g' : Io) : g'.map = g.map → g'.max = g.max → IoInv g' →
      (base + len < W → (∃ c c', Uniform g.map base len c ∧ tr c = some c') → ¬ g.Room) → IoEffect g base len tr (.err e, g')

theorem ioChange_spec {g : Io} (hi : IoInv g) {base len : Nat} (hl : len < W) {tr : IoCell → Option IoCell}
    {onErr : IoCell → BlockErr → EfiError}
    (ht : ∀ c c', tr c = some c' → (c.allocated = true → c.type ≠ .nonExistent ∧ c.image ≠ 0) →
      c'.allocated = true → c'.type ≠ .nonExistent ∧ c'.image ≠ 0) :
    IoEffect g base len tr (g.ready.change base len tr onErr) := by
  obtain ⟨hi', hc, hg⟩ := ready_inv hi
  have hlen : g.ready.blocks.length ≤ SLOTS := by
    rcases hi'.map with ⟨h, _⟩ | ⟨_, _, h⟩
    · rw [hc] at h; cases h
    · exact h
  have h := changeAt_spec (cap := g.ready.cap) (base := base) (len := len) (tr := tr) (onErr := onErr) hl hi.ltW hi.pos hg
  have hrr : g.ready.map = g.map := by unfold Io.map; rw [ready_ready hc]
  unfold Io.change
  revert h
  generalize changeAt g.ready.cap g.ready.blocks base len tr onErr = r
  intro h
  cases h with
  | ok c c' l h1 h2 h3 h4 h5 h6 =>
    have hm : ({ g.ready with blocks := l } : Io).map = l := by unfold Io.map; rw [ready_ready (by exact hc)]
    refine .ok c c' { g.ready with blocks := l } h1 h2 (by rw [hm]; exact h4) (ready_max g) ?_
    refine ⟨by rw [show ({ g.ready with blocks := l } : Io).max = g.max from ready_max g]; exact hi.pos,
      by rw [show ({ g.ready with blocks := l } : Io).max = g.max from ready_max g]; exact hi.lt, .inr ⟨hc, ?_, ?_⟩, ?_⟩
    · show Good l g.ready.max
      rw [ready_max]; exact h3
    · rw [hc] at h5; exact h5 hlen
    · intro a x hx
      have hx' : cellAt l a = some x := hx
      rw [h4 a] at hx'
      split at hx'
      · rename_i ha
        injection hx' with hx'
        subst hx'
        exact ht c c' h2 (hi'.cells a c (h1.2 a ha.1 ha.2))
      · exact hi'.cells a x hx'
  | full c c' h1 h2 h3 =>
    refine .err _ g.ready hrr (ready_max g) hi' fun _ _ hr => ?_
    rw [hc] at h3
    unfold Io.Room at hr
    unfold SLOTS at h3
    have : g.map.length = g.ready.blocks.length := rfl
    omega
  | invalid c h1 h2 =>
    refine .err _ g.ready hrr (ready_max g) hi' fun _ ⟨d, d', h3, h4⟩ _ => ?_
    rw [uniform_unique h1 h3] at h2
    rw [h2] at h4; cases h4
  | outside c h1 => exact .err _ g.ready hrr (ready_max g) hi' fun _ ⟨d, d', h3, h4⟩ _ => absurd h3 (h1 d)

theorem ioSame {g : Io} (hi : IoInv g) {base len : Nat} {tr : IoCell → Option IoCell} (e : EfiError)
    (h : ∀ c c', Uniform g.map base len c → tr c = some c' → False) : IoEffect g base len tr (.err e, g) :=
  .err e g rfl rfl hi fun _ ⟨c, c', h1, h2⟩ => absurd (h c c' h1 h2) id

theorem ioBounds {g : Io} (hi : IoInv g) {base len : Nat} {c : IoCell} (h : Uniform g.map base len c) :
    0 < len ∧ base + len ≤ g.max ∧ addw base len = base + len := by
  have hb := uniform_bounds (ready_inv hi).2.2.tiles h
  have := hi.ltW
  exact ⟨h.1, hb, by unfold addw; exact Nat.mod_eq_of_lt (by omega)⟩

theorem ioAdd_effect {g : Io} (hi : IoInv g) {ty : IoType} {base len : Nat} (hl : len < W) :
    IoEffect g base len (ioAddTr ty) (g.add ty base len) := by
  unfold Io.add
  rw [if_neg (by have := hi.pos; omega)]
  split
  · exact ioSame hi _ fun c c' h _ => by have := (ioBounds hi h).1; omega
  split
  · exact ioSame hi _ fun c c' h _ => by have := ioBounds hi h; omega
  split
  · rename_i hn
    obtain ⟨hi', hc, hg⟩ := ready_inv hi
    refine .err _ g.ready (by unfold Io.map; rw [ready_ready hc]) (ready_max g) hi' fun _ ⟨c, c', h1, h2⟩ _ => ?_
    have hb := ioBounds hi h1
    obtain ⟨z, hz, hplug, hbase, hin, _⟩ := seek_spec (k := base) hg.tiles hi.pos
    have := (uniform_holds hg h1 (by rw [← hplug]; exact mem_plug z) hbase (hin (by omega))).2
    unfold ioNonExistent at hn
    rw [hz] at hn
    simp only [decide_eq_false_iff_not] at hn
    unfold ioAddTr at h2
    split at h2
    · rename_i h3; rw [this] at hn; exact hn h3.2.1
    · cases h2
  · refine ioChange_spec hi hl fun c c' h hc ha => ?_
    unfold ioAddTr at h
    split at h
    · rename_i h1; injection h with h; subst h; rw [show c.allocated = true from ha] at h1; cases h1.1
    · cases h

theorem ioRemove_effect {g : Io} (hi : IoInv g) {base len : Nat} (hl : len < W) :
    IoEffect g base len ioRemoveTr (g.remove base len) := by
  unfold Io.remove
  rw [if_neg (by have := hi.pos; omega)]
  split
  · exact ioSame hi _ fun c c' h _ => by have := (ioBounds hi h).1; omega
  split
  · exact ioSame hi _ fun c c' h _ => by have := ioBounds hi h; omega
  · refine ioChange_spec hi hl fun c c' h hc ha => ?_
    unfold ioRemoveTr at h
    split at h
    · rename_i h1; injection h with h; subst h; rw [show c.allocated = true from ha] at h1; cases h1.1
    · cases h

theorem ioFree_effect {g : Io} (hi : IoInv g) {base len : Nat} (hl : len < W) :
    IoEffect g base len ioFreeTr (g.free base len) := by
  unfold Io.free
  rw [if_neg (by have := hi.pos; omega)]
  split
  · exact ioSame hi _ fun c c' h _ => by have := (ioBounds hi h).1; omega
  split
  · exact ioSame hi _ fun c c' h _ => by have := ioBounds hi h; omega
  · refine ioChange_spec hi hl fun c c' h hc ha => ?_
    unfold ioFreeTr at h
    split at h
    · injection h with h; subst h; cases ha
    · cases h

/-! ### Allocation -/

/-- `[addr, addr + len)` is existing I/O space of the type that nobody has allocated. -/
def IoFree (g : Io) (ty : IoType) (len addr : Nat) : Prop :=
  ty ≠ .nonExistent ∧ ∃ c, Uniform g.map addr len c ∧ c.allocated = false ∧ c.type = ty

/-- How an allocation can end; `hit` are the ranges that would do, `best` orders them. -/
inductive IoAlloc (g : Io) (ty : IoType) (len image : Nat) (device : Option Nat) (hit : Nat → Prop) (best : Nat → Nat → Prop) :
    IoRet Nat → Prop
  | ok (addr : Nat) (c : IoCell) (g' : Io) : Uniform g.map addr len c → c.allocated = false → c.type = ty → ty ≠ .nonExistent →
      hit addr → Updated g.map g'.map addr len { c with allocated := true, image := image, device := device.getD c.device } →
      g'.max = g.max → IoInv g' → (∀ a, hit a → best addr a) → IoAlloc g ty len image device hit best (.ok addr, g')
  | err (e : EfiError) (g' : Io) : g'.map = g.map → g'.max = g.max → IoInv g' → ((∃ a, hit a) → ¬ g.Room) →
      IoAlloc g ty len image device hit best (.err e, g')

theorem ioAllocTr_some {image : Nat} {device : Option Nat} {c c' : IoCell} (h : ioAllocTr image device c = some c') :
    c.allocated = false ∧ c.type ≠ .nonExistent ∧
      c' = { c with allocated := true, image := image, device := device.getD c.device } := by
  unfold ioAllocTr at h
  split at h
  · rename_i h1; injection h with h; exact ⟨h1.1, h1.2, h.symm⟩
  · cases h

theorem ioAllocTr_ok {image : Nat} {device : Option Nat} {c : IoCell} (h1 : c.allocated = false) (h2 : c.type ≠ .nonExistent) :
    (ioAllocTr image device c).isSome = true := by
  unfold ioAllocTr; rw [if_pos ⟨h1, h2⟩]; rfl

/-- From a search over the blocks to the outcome of the call: shared by the two directions. -/
theorem ioSearch_alloc {g : Io} (hi : IoInv g) {ty : IoType} {len image : Nat} {device : Option Nat} (him : 0 < image)
    {cand : Block IoCell → Cand} {rest : List (Block IoCell)} {hit : Nat → Prop} {best : Nat → Nat → Prop} {res : Outcome EfiError Nat}
    {l : List (Block IoCell)}
    (hs : Search g.ready.cap cand len (ioAllocTr image device) .notFound g.max g.ready.blocks rest res l)
    (hmem : ∀ b ∈ rest, b ∈ g.ready.blocks)
    (htry : ∀ b ∈ rest, ∀ x, cand b = .try_ x → b.Holds x len → b.st.allocated = false → b.st.type ≠ .nonExistent → b.st.type = ty ∧ hit x)
    (hhit : ∀ a, hit a → ∃ b ∈ rest, b.Holds a len ∧ ∃ x, cand b = .try_ x ∧ best x a ∧ Applies b x len (ioAllocTr image device))
    (hstop : ∀ b ∈ rest, ∀ e, cand b = .stop e → ∀ r1 r2, rest = r1 ++ b :: r2 → ∀ a, hit a → ∀ b' ∈ r2, ¬ b'.Holds a len)
    (hlater : ∀ r1 r2 b x a b', rest = r1 ++ b :: r2 → b' ∈ r2 → b.Holds x len → b'.Holds a len → best x a) :
    IoAlloc g ty len image device hit best (res, { g.ready with blocks := l }) := by
  obtain ⟨hi', hc, hg⟩ := ready_inv hi
  have hlen : g.ready.blocks.length ≤ SLOTS := by
    rcases hi'.map with ⟨h, _⟩ | ⟨_, _, h⟩
    · rw [hc] at h; cases h
    · exact h
  have hself : ({ g.ready with blocks := g.ready.blocks } : Io) = g.ready := rfl
  have hrr : g.ready.map = g.map := by unfold Io.map; rw [ready_ready hc]
  have hnpass : ∀ b x, cand b = .try_ x → Applies b x len (ioAllocTr image device) → ¬ Passes cand len (ioAllocTr image device) b := by
    intro b x hx ha hpass
    rcases hpass with h | ⟨y, hy, hna⟩
    · rw [hx] at h; cases h
    · rw [hx] at hy; injection hy with hy; subst hy; exact hna ha
  cases hs with
  | found p1 p2 b addr st _ h1 h2 h3 h4 h5 h6 h7 h8 =>
    have hb : b ∈ rest := by rw [h1]; simp
    have hbb := hmem b hb
    obtain ⟨t1, t2, t5⟩ := ioAllocTr_some h4
    have hu : Uniform g.map addr len b.st := holds_uniform hg.tiles hbb h5
    obtain ⟨q1, q2⟩ := htry b hb addr h3 h5 t1 t2
    have hm : ({ g.ready with blocks := l } : Io).map = l := by unfold Io.map; rw [ready_ready (by exact hc)]
    rw [t5] at h7
    refine .ok addr b.st { g.ready with blocks := l } hu t1 q1 (q1 ▸ t2) q2 (by rw [hm]; exact h7) (ready_max g) ?_ ?_
    · refine ⟨by rw [show ({ g.ready with blocks := l } : Io).max = g.max from ready_max g]; exact hi.pos,
        by rw [show ({ g.ready with blocks := l } : Io).max = g.max from ready_max g]; exact hi.lt, .inr ⟨hc, ?_, ?_⟩, ?_⟩
      · show Good l g.ready.max
        rw [ready_max]; exact h6
      · rw [hc] at h8; exact h8 hlen
      · intro a x hx
        have hx' : cellAt l a = some x := hx
        rw [h7 a] at hx'
        split at hx'
        · injection hx' with hx'
          subst hx'
          exact fun _ => ⟨t2, by show image ≠ 0; omega⟩
        · exact hi'.cells a x hx'
    · intro a ha
      obtain ⟨b', hb', hh', x, hx1, hx2, hx3⟩ := hhit a ha
      rw [h1] at hb'
      rcases List.mem_append.1 hb' with hb' | hb'
      · exact absurd (h2 b' hb') (hnpass b' x hx1 hx3)
      · rcases List.mem_cons.1 hb' with hb' | hb'
        · subst hb'
          rw [h3] at hx1; injection hx1 with hx1; subst hx1; exact hx2
        · exact hlater p1 p2 b addr a b' h1 hb' h5 hh'
  | none h1 =>
    simp only [hself]
    refine .err _ _ hrr (ready_max g) hi' ?_
    rintro ⟨a, ha⟩
    obtain ⟨b', hb', hh', x, hx1, hx2, hx3⟩ := hhit a ha
    exact absurd (h1 b' hb') (hnpass b' x hx1 hx3)
  | stop p1 p2 b er h1 h2 h3 =>
    simp only [hself]
    refine .err _ _ hrr (ready_max g) hi' ?_
    rintro ⟨a, ha⟩
    obtain ⟨b', hb', hh', x, hx1, hx2, hx3⟩ := hhit a ha
    have hb : b ∈ rest := by rw [h1]; simp
    have hns := hstop b hb er h3 p1 p2 h1 a ha
    rw [h1] at hb'
    rcases List.mem_append.1 hb' with hb' | hb'
    · exact absurd (h2 b' hb') (hnpass b' x hx1 hx3)
    · rcases List.mem_cons.1 hb' with hb' | hb'
      · subst hb'; rw [hx1] at h3; cases h3
      · exact absurd hh' (hns b' hb')
  | full p1 p2 b addr h1 h2 h3 h4 h5 =>
    simp only [hself]
    refine .err _ _ hrr (ready_max g) hi' fun _ hr => ?_
    rw [hc] at h5
    unfold Io.Room at hr
    unfold SLOTS at h5
    have : g.map.length = g.ready.blocks.length := rfl
    omega

/-- The ranges below `max` (exclusive end) that would do. -/
def IoUpHit (g : Io) (ty : IoType) (shift len max a : Nat) : Prop := IoFree g ty len a ∧ a % 2 ^ shift = 0 ∧ a + len ≤ max

/-- The ranges up to `max` (inclusive) that would do. -/
def IoDownHit (g : Io) (ty : IoType) (shift len max a : Nat) : Prop := IoFree g ty len a ∧ a % 2 ^ shift = 0 ∧ a + len ≤ max + 1

theorem ioAllocUp_spec {g : Io} (hi : IoInv g) {ty : IoType} {shift len image max : Nat} {device : Option Nat} (hs : shift < 64)
    (hp : 0 < len) (hl : len < W) (him : 0 < image) :
    IoAlloc g ty len image device (IoUpHit g ty shift len max) (fun r a => r ≤ a) (g.ready.allocUp ty shift len image device max) := by
  obtain ⟨hi', hc, hg⟩ := ready_inv hi
  have hW : W = 2 ^ 63 * 2 := rfl
  have hmax := hi.lt
  have hmem : ∀ b ∈ g.ready.blocks, b.base + b.len ≤ 2 ^ 63 ∧ 0 < b.len := by
    intro b hb
    have := tiles_mem hg.tiles hb
    omega
  have hsrch := searchUp_spec (cap := g.ready.cap) (cand := ioUpCand ty shift len max) (tr := ioAllocTr image device) (len := len)
    (final := .notFound) (before := []) (rest := g.ready.blocks) hl hi.ltW (by simpa using hg)
  simp only [List.reverse_nil, List.nil_append] at hsrch
  unfold Io.allocUp
  refine ioSearch_alloc hi him hsrch (fun b h => h) ?_ ?_ ?_ ?_
  · intro b hb x hx hh h1 h2
    obtain ⟨u1, u2, u3, u4⟩ := upAddr_spec (s := shift) (start := b.base) hs (by have := (hmem b hb).1; omega)
    unfold ioUpCand at hx
    split at hx
    · cases hx
    split at hx
    · cases hx
    split at hx
    · cases hx
    rename_i g1 g2 g3
    injection hx with hx
    subst hx
    have hty : b.st.type = ty := Decidable.not_not.1 g3
    have e1 : addw (upAddr shift b.base) len = upAddr shift b.base + len := by
      unfold addw; apply Nat.mod_eq_of_lt; have := hh.2.2; have := (hmem b hb).1; omega
    rw [e1] at g2
    exact ⟨hty, ⟨hty ▸ h2, b.st, holds_uniform hg.tiles hb hh, h1, hty⟩, u1, by omega⟩
  · rintro a ⟨⟨hty, c, hu, h1, h2⟩, hal, hle⟩
    obtain ⟨b, hb, hh, hst⟩ := uniform_block hg hu
    obtain ⟨u1, u2, u3, u4⟩ := upAddr_spec (s := shift) (start := b.base) hs (by have := (hmem b hb).1; omega)
    have hx := u4 a hal hh.2.1
    have hh2 := hh.2.2
    have hlim := (hmem b hb).1
    refine ⟨b, hb, hh, upAddr shift b.base, ?_, hx, ⟨hp, u2, by omega⟩, ?_⟩
    · unfold ioUpCand
      have e1 : addw (upAddr shift b.base) len = upAddr shift b.base + len := by
        unfold addw; exact Nat.mod_eq_of_lt (by omega)
      rw [if_neg (by have := hh.2.1; omega), e1, if_neg (by omega), if_neg (by rw [hst]; exact fun h => h h2)]
    · rw [hst]; exact ioAllocTr_ok h1 (by rw [h2]; exact hty)
  · intro b hb e he r1 r2 hr a ha b' hb' hh'
    obtain ⟨u1, u2, u3, u4⟩ := upAddr_spec (s := shift) (start := b.base) hs (by have := (hmem b hb).1; omega)
    have hbb' : b' ∈ g.ready.blocks := by rw [hr]; simp [hb']
    have hlim := (hmem b' hbb').1
    have := tiles_after (hr ▸ hg.tiles) hb'
    have := hh'.2.1
    have := hh'.2.2
    have := u4 a ha.2.1 (by omega)
    unfold ioUpCand at he
    split at he
    · cases he
    split at he
    · rename_i _ g2
      have e1 : addw (upAddr shift b.base) len = upAddr shift b.base + len := by
        unfold addw; exact Nat.mod_eq_of_lt (by omega)
      rw [e1] at g2
      have := ha.2.2
      omega
    split at he <;> cases he
  · intro r1 r2 b x a b' hr hb' hx ha
    have := tiles_after (hr ▸ hg.tiles) hb'
    have := hx.2.2
    have := ha.2.1
    omega

theorem ioAllocDown_spec {g : Io} (hi : IoInv g) {ty : IoType} {shift len image max : Nat} {device : Option Nat} (hs : shift < 64)
    (hp : 0 < len) (hl : len < W) (him : 0 < image) :
    IoAlloc g ty len image device (IoDownHit g ty shift len max) (fun r a => a ≤ r) (g.ready.allocDown ty shift len image device max) := by
  obtain ⟨hi', hc, hg⟩ := ready_inv hi
  have hW : W = 2 ^ 63 * 2 := rfl
  have hmax := hi.lt
  have hmem : ∀ b ∈ g.ready.blocks, b.base + b.len ≤ 2 ^ 63 ∧ 0 < b.len := by
    intro b hb
    have := tiles_mem hg.tiles hb
    omega
  obtain ⟨z, hz, hplug, hbase, hin, hafter⟩ := seek_spec (k := max) hg.tiles hi.pos
  have hpl : (z.cur :: z.before).reverse ++ z.after = g.ready.blocks := by
    rw [← hplug]; simp [Zip.plug]
  have hrm : ∀ b ∈ z.cur :: z.before, b ∈ g.ready.blocks := by
    intro b hb
    rw [← hpl]
    exact List.mem_append_left _ (List.mem_reverse.2 hb)
  have hrb : ∀ b ∈ z.cur :: z.before, b.base ≤ max := by
    intro b hb
    rcases List.mem_cons.1 hb with h | h
    · rw [h]; exact hbase
    · have ht : Tiles 0 (z.before.reverse ++ z.cur :: z.after) g.max := by rw [← hplug] at hg; exact hg.tiles
      obtain ⟨m, t1, t2⟩ := tiles_append.1 ht
      have := tiles_mem t1 (List.mem_reverse.2 h)
      have := t2.1
      omega
  have hbelow : ∀ p1 p2 (b x : Block IoCell), z.cur :: z.before = p1 ++ b :: p2 → x ∈ p2 → x.base + x.len ≤ b.base := by
    intro p1 p2 b x h1 hx
    have ht : Tiles 0 (p2.reverse ++ b :: (p1.reverse ++ z.after)) g.max := by
      have := hg.tiles
      rw [← hpl, h1] at this
      simpa using this
    obtain ⟨m, t1, t2⟩ := tiles_append.1 ht
    have := tiles_mem t1 (List.mem_reverse.2 hx)
    have := t2.1
    omega
  have hsrch := searchDown_spec (cap := g.ready.cap) (cand := ioDownCand ty shift len max) (tr := ioAllocTr image device) (len := len)
    (final := .notFound) (rest := z.cur :: z.before) (after := z.after) hl hi.ltW (by rw [hpl]; exact hg)
  rw [hpl] at hsrch
  unfold Io.allocDown
  simp only [hz]
  refine ioSearch_alloc hi him hsrch hrm ?_ ?_ ?_ ?_
  · intro b hb x hx hh h1 h2
    have hbb := hrm b hb
    obtain ⟨v1, v2, v3⟩ := usableLen_spec (hmem b hbb).1 (hmem b hbb).2 (hrb b hb)
    unfold ioDownCand at hx
    split at hx
    · cases hx
    split at hx
    · cases hx
    split at hx
    · cases hx
    rename_i g1 g2 g3
    injection hx with hx
    subst hx
    obtain ⟨d1, d2, d3⟩ := downAddr_spec (s := shift) (len := len) hs (hmem b hbb).1 (hmem b hbb).2 (hrb b hb) (by omega)
    have hty : b.st.type = ty := Decidable.not_not.1 g3
    exact ⟨hty, ⟨hty ▸ h2, b.st, holds_uniform hg.tiles hbb hh, h1, hty⟩, d1, by omega⟩
  · rintro a ⟨⟨hty, c, hu, h1, h2⟩, hal, hle⟩
    obtain ⟨b, hbb, hh, hst⟩ := uniform_block hg hu
    have hh1 := hh.2.1
    have hh2 := hh.2.2
    have hb : b ∈ z.cur :: z.before := by
      rw [← hpl] at hbb
      rcases List.mem_append.1 hbb with h | h
      · exact List.mem_reverse.1 h
      · have := hafter b h
        omega
    obtain ⟨v1, v2, v3⟩ := usableLen_spec (hmem b hbb).1 (hmem b hbb).2 (hrb b hb)
    have hv := v3 (a + len) hh2 hle
    obtain ⟨d1, d2, d3⟩ := downAddr_spec (s := shift) (len := len) hs (hmem b hbb).1 (hmem b hbb).2 (hrb b hb) (by omega)
    have hx := d3 a hal hv
    refine ⟨b, hb, hh, downAddr shift len max b, ?_, hx, ⟨hp, by omega, by omega⟩, ?_⟩
    · unfold ioDownCand
      rw [if_neg (by omega), if_neg (by omega), if_neg (by rw [hst]; exact fun h => h h2)]
    · rw [hst]; exact ioAllocTr_ok h1 (by rw [h2]; exact hty)
  · intro b hb e he
    unfold ioDownCand at he
    split at he
    · cases he
    split at he
    · cases he
    split at he <;> cases he
  · intro r1 r2 b x a b' hr hb' hx ha
    have := hbelow r1 r2 b b' hr hb'
    have := hx.2.1
    have := ha.2.2
    omega

theorem ioAllocAddress_spec {g : Io} (hi : IoInv g) {ty : IoType} {shift len image addr : Nat} {device : Option Nat} (hs : shift < 64)
    (hl : len < W) (him : 0 < image) (ha : addr < W) :
    IoAlloc g ty len image device (fun a => a = addr ∧ IoFree g ty len a ∧ a % 2 ^ shift = 0) (fun _ _ => True)
      (g.ready.allocAddress ty shift len image device addr) := by
  obtain ⟨hi', hc, hg⟩ := ready_inv hi
  have hrr : g.ready.map = g.map := by unfold Io.map; rw [ready_ready hc]
  have hal : (addr = addr &&& maskShl shift) ↔ addr % 2 ^ shift = 0 := by
    rw [maskShl_and ha hs]
    have := Nat.mod_le addr (2 ^ shift)
    omega
  obtain ⟨z, hz, hplug, hbase, hin, _⟩ := seek_spec (k := addr) hg.tiles hi.pos
  have hst : ∀ c, Uniform g.map addr len c → z.cur.st = c := by
    intro c hu
    have := ioBounds hi hu
    exact (uniform_holds hg hu (by rw [← hplug]; exact mem_plug z) hbase (hin (by omega))).2
  have hfit : ioFitsAddress g.ready ty shift addr = decide (z.cur.st.type = ty ∧ addr = addr &&& maskShl shift) := by
    unfold ioFitsAddress; rw [hz]
  unfold Io.allocAddress
  rw [hfit]
  by_cases h : z.cur.st.type = ty ∧ addr = addr &&& maskShl shift
  · rw [decide_eq_true h, if_neg (by simp)]
    have he := ioChange_spec (base := addr) (tr := ioAllocTr image device) (onErr := fun _ _ => .notFound) hi hl (by
      intro c c' h0 _ _
      obtain ⟨t1, t2, t3⟩ := ioAllocTr_some h0
      subst t3
      exact ⟨t2, by show image ≠ 0; omega⟩)
    revert he
    generalize g.ready.change addr len (ioAllocTr image device) (fun _ _ => .notFound) = r
    intro he
    cases he with
    | ok c c' g' h1 h2 h3 h4 h5 =>
      obtain ⟨t1, t2, t3⟩ := ioAllocTr_some h2
      have hty : c.type = ty := by rw [← hst c h1]; exact h.1
      rw [t3] at h3
      exact .ok addr c g' h1 t1 hty (hty ▸ t2) ⟨rfl, ⟨hty ▸ t2, c, h1, t1, hty⟩, hal.1 h.2⟩ h3 h4 h5 (fun _ _ => trivial)
    | err e g' h1 h2 h3 h4 =>
      refine .err e g' h1 h2 h3 ?_
      rintro ⟨a, rfl, ⟨hty, c, hu, h5, h6⟩, _⟩
      have := ioBounds hi hu
      have := hi.ltW
      refine h4 (by omega) ⟨c, _, hu, (Option.some_get (ioAllocTr_ok h5 (by rw [h6]; exact hty))).symm⟩
  · rw [decide_eq_false h, if_pos rfl]
    refine .err _ _ hrr (ready_max g) hi' ?_
    rintro ⟨a, rfl, ⟨hty, c, hu, h5, h6⟩, h7⟩
    exact absurd ⟨by rw [hst c hu]; exact h6, hal.2 h7⟩ h

/-- The ranges an allocation request may be met with. -/
def ioHit (g : Io) (at_ : AllocType) (ty : IoType) (shift len : Nat) (a : Nat) : Prop :=
  match at_ with
  | .bottomUp m => IoUpHit g ty shift len (m.getD (W - 1)) a
  | .topDown m => IoDownHit g ty shift len (m.getD (W - 1)) a
  | .address x => a = x ∧ IoFree g ty len a ∧ a % 2 ^ shift = 0

def ioBest (at_ : AllocType) (r a : Nat) : Prop :=
  match at_ with
  | .bottomUp _ => r ≤ a
  | .topDown _ => a ≤ r
  | .address _ => True

theorem ioAllocate_spec {g : Io} (hi : IoInv g) {at_ : AllocType} {ty : IoType} {shift len image : Nat} {device : Option Nat}
    (hq : IoOp.InRange (.allocate at_ ty shift len image device)) :
    IoAlloc g ty len image device (fun a => ioHit g at_ ty shift len a ∧ image ≠ 0) (ioBest at_)
      (g.allocate at_ ty shift len image device) := by
  obtain ⟨hl, hs, hq⟩ := hq
  unfold Io.allocate
  rw [if_neg (by have := hi.pos; omega)]
  split
  · rename_i h
    refine .err _ g rfl rfl hi ?_
    rintro ⟨a, ha, him⟩
    refine absurd ⟨?_, by omega⟩ h
    cases at_ with
    | bottomUp m => obtain ⟨⟨_, c, hu, _⟩, _⟩ := ha; exact hu.1
    | topDown m => obtain ⟨⟨_, c, hu, _⟩, _⟩ := ha; exact hu.1
    | address x => obtain ⟨_, ⟨_, c, hu, _⟩, _⟩ := ha; exact hu.1
  · rename_i h
    have h := Decidable.not_not.1 h
    have him : image ≠ 0 := by omega
    have hw : ∀ {hit : Nat → Prop} {best : Nat → Nat → Prop} {r : IoRet Nat}, IoAlloc g ty len image device hit best r →
        IoAlloc g ty len image device (fun a => hit a ∧ image ≠ 0) best r := by
      intro hit best r h
      cases h with
      | ok addr c g' a1 a2 a3 a4 a5 a6 a7 a8 a9 => exact .ok addr c g' a1 a2 a3 a4 ⟨a5, him⟩ a6 a7 a8 fun a ha => a9 a ha.1
      | err e g' a1 a2 a3 a4 => exact .err e g' a1 a2 a3 fun ⟨a, ha⟩ => a4 ⟨a, ha.1⟩
    cases at_ with
    | bottomUp m => exact hw (ioAllocUp_spec hi hs h.1 hl h.2)
    | topDown m => exact hw (ioAllocDown_spec hi hs h.1 hl h.2)
    | address x =>
      simp only []
      split
      · refine .err _ g rfl rfl hi ?_
        rintro ⟨a, ⟨rfl, ⟨_, c, hu, _⟩, _⟩, _⟩
        have := ioBounds hi hu
        omega
      · exact hw (ioAllocAddress_spec hi hs hl h.2 hq)

/-! ### The properties -/

theorem IoEffect.inv {g : Io} {base len : Nat} {tr : IoCell → Option IoCell} {r : IoRet Unit} (h : IoEffect g base len tr r) :
    IoInv r.2 ∧ r.2.max = g.max := by
  cases h with
  | ok c c' g' h1 h2 h3 h4 h5 => exact ⟨h5, h4⟩
  | err e g' h1 h2 h3 => exact ⟨h3, h2⟩

theorem ioStep_inv {g : Io} (hi : IoInv g) {op : IoOp} (ho : op.InRange) : IoInv (g.step op) ∧ (g.step op).max = g.max := by
  cases op with
  | add ty base len => exact (ioAdd_effect hi ho.2).inv
  | remove base len => exact (ioRemove_effect hi ho.2).inv
  | free base len => exact (ioFree_effect hi ho.2).inv
  | allocate at_ ty shift len image device =>
    have := ioAllocate_spec hi ho
    show IoInv (g.allocate at_ ty shift len image device).2 ∧ (g.allocate at_ ty shift len image device).2.max = g.max
    revert this
    generalize g.allocate at_ ty shift len image device = r
    intro h
    cases h with
    | ok addr c g' a1 a2 a3 a4 a5 a6 a7 a8 a9 => exact ⟨a8, a7⟩
    | err e g' a1 a2 a3 a4 => exact ⟨a3, a2⟩
  | descriptors =>
    show IoInv (if g.max = 0 then g else g.ready) ∧ (if g.max = 0 then g else g.ready).max = g.max
    rw [if_neg (by have := hi.pos; omega)]
    exact ⟨(ready_inv hi).1, ready_max g⟩

theorem ioRun_inv {g : Io} (hi : IoInv g) {ops : List IoOp} (ho : ∀ op ∈ ops, IoOp.InRange op) :
    IoInv (g.run ops) ∧ (g.run ops).max = g.max := by
  induction ops generalizing g with
  | nil => exact ⟨hi, rfl⟩
  | cons op ops ih =>
    have h1 := ioStep_inv hi (ho op (by simp))
    have h2 := ih h1.1 fun o h => ho o (by simp [h])
    exact ⟨h2.1, h2.2.trans h1.2⟩

theorem ioStart_inv (bits : Nat) : IoInv (Io.start bits) := by
  have h : oneShl bits = 2 ^ (bits % 64) := rfl
  refine ⟨?_, ?_, .inl ⟨rfl, rfl⟩, fun a c hc => by cases hc⟩
  · show 0 < oneShl bits
    rw [h]; exact Nat.two_pow_pos _
  · show oneShl bits ≤ 2 ^ 63
    rw [h]; exact pow_le63 (Nat.mod_lt _ (by omega))

theorem ioReachable_inv {g : Io} (h : IoReachable g) : IoInv g := by
  obtain ⟨bits, ops, ho, rfl⟩ := h
  exact (ioRun_inv (ioStart_inv bits) ho).1

/-- C21: for every width of the I/O address space and every history of calls, the descriptors are in order, non-empty,
contiguous, cover all of `[0, 2^bits)`, and no two neighbours could be merged. -/
theorem io_partition (bits : Nat) (hb : bits < 64) (ops : List IoOp) (ho : ∀ op ∈ ops, IoOp.InRange op) :
    ∃ l, ((Io.start bits).run ops).descriptors = .ok l ∧ Tiles 0 l (2 ^ bits) ∧ Coalesced l ∧ l.length ≤ 4096 := by
  have hi := ioRun_inv (ioStart_inv bits) ho
  have hm : ((Io.start bits).run ops).max = 2 ^ bits := by rw [hi.2]; exact oneShl_eq hb
  obtain ⟨hi', hc, hg⟩ := ready_inv hi.1
  refine ⟨_, by unfold Io.descriptors; rw [if_neg (by have := hi.1.pos; omega)], by rw [← hm]; exact hg.tiles, hg.coal, ?_⟩
  rcases hi'.map with ⟨h, _⟩ | ⟨_, _, h⟩
  · rw [hc] at h; cases h
  · exact h

variable {g g' : Io} {base len : Nat}

/-- C21: a successful add changes exactly the range asked for, from non-existent to the type given. -/
theorem io_add_ok (hr : IoReachable g) (hl : len < W) {ty : IoType} (h : g.add ty base len = (.ok (), g')) :
    ∃ c, Uniform g.map base len c ∧ c.allocated = false ∧ c.type = .nonExistent ∧ ty ≠ .nonExistent ∧
      Updated g.map g'.map base len { c with type := ty } := by
  have he := ioAdd_effect (ioReachable_inv hr) (ty := ty) (base := base) hl
  rw [h] at he
  cases he with
  | ok c c' _ h1 h2 h3 h4 h5 =>
    unfold ioAddTr at h2
    split at h2
    · rename_i h6; injection h2 with h2; subst h2; exact ⟨c, h1, h6.1, h6.2.1, h6.2.2, h3⟩
    · cases h2

theorem io_remove_ok (hr : IoReachable g) (hl : len < W) (h : g.remove base len = (.ok (), g')) :
    ∃ c, Uniform g.map base len c ∧ c.allocated = false ∧ c.type ≠ .nonExistent ∧
      Updated g.map g'.map base len { c with type := .nonExistent } := by
  have he := ioRemove_effect (ioReachable_inv hr) (base := base) hl
  rw [h] at he
  cases he with
  | ok c c' _ h1 h2 h3 h4 h5 =>
    unfold ioRemoveTr at h2
    split at h2
    · rename_i h6; injection h2 with h2; subst h2; exact ⟨c, h1, h6.1, h6.2, h3⟩
    · cases h2

theorem io_free_ok (hr : IoReachable g) (hl : len < W) (h : g.free base len = (.ok (), g')) :
    ∃ c, Uniform g.map base len c ∧ c.allocated = true ∧ c.type ≠ .nonExistent ∧
      Updated g.map g'.map base len { c with allocated := false, image := 0, device := 0 } := by
  have he := ioFree_effect (ioReachable_inv hr) (base := base) hl
  rw [h] at he
  cases he with
  | ok c c' _ h1 h2 h3 h4 h5 =>
    unfold ioFreeTr at h2
    split at h2
    · rename_i h6; injection h2 with h2; subst h2; exact ⟨c, h1, h6.1, h6.2, h3⟩
    · cases h2

/-- C21: a successful allocation is aligned, within its limit, was free, of the type, and is the lowest (bottom-up) or highest
(top-down) range that would do; exactly that range becomes allocated to the caller. -/
theorem io_allocate_ok (hr : IoReachable g) {at_ : AllocType} {ty : IoType} {shift image addr : Nat} {device : Option Nat}
    (hq : IoOp.InRange (.allocate at_ ty shift len image device)) (h : g.allocate at_ ty shift len image device = (.ok addr, g')) :
    ioHit g at_ ty shift len addr ∧ image ≠ 0 ∧ (∀ a, ioHit g at_ ty shift len a → ioBest at_ addr a) ∧
    ∃ c, Uniform g.map addr len c ∧ c.allocated = false ∧ c.type = ty ∧ ty ≠ .nonExistent ∧
      Updated g.map g'.map addr len { c with allocated := true, image := image, device := device.getD c.device } := by
  have he := ioAllocate_spec (ioReachable_inv hr) hq
  rw [h] at he
  cases he with
  | ok _ c _ a1 a2 a3 a4 a5 a6 a7 a8 a9 =>
    exact ⟨a5.1, a5.2, fun a ha => a9 a ⟨ha, a5.2⟩, c, a1, a2, a3, a4, a6⟩

/-- C21: a call that fails changes no address. -/
theorem io_fail_changes_nothing (hr : IoReachable g) {e : EfiError} :
    (∀ ty, len < W → g.add ty base len = (.err e, g') → g'.map = g.map) ∧
    (len < W → g.remove base len = (.err e, g') → g'.map = g.map) ∧
    (len < W → g.free base len = (.err e, g') → g'.map = g.map) ∧
    (∀ at_ ty shift image device, IoOp.InRange (.allocate at_ ty shift len image device) →
      g.allocate at_ ty shift len image device = (.err e, g') → g'.map = g.map) := by
  have hi := ioReachable_inv hr
  refine ⟨fun ty hl h => ?_, fun hl h => ?_, fun hl h => ?_, fun at_ ty shift image device hq h => ?_⟩
  · have he := ioAdd_effect hi (ty := ty) (base := base) hl
    rw [h] at he
    cases he with | err _ _ h1 _ _ _ => exact h1
  · have he := ioRemove_effect hi (base := base) hl
    rw [h] at he
    cases he with | err _ _ h1 _ _ _ => exact h1
  · have he := ioFree_effect hi (base := base) hl
    rw [h] at he
    cases he with | err _ _ h1 _ _ _ => exact h1
  · have he := ioAllocate_spec hi hq
    rw [h] at he
    cases he with | err _ _ h1 _ _ _ => exact h1

/-- C21: with room in the table, a call on a range whose state permits it succeeds. -/
theorem io_range_succeeds (hr : IoReachable g) (hl : len < W) (hroom : g.Room) {c : IoCell} (hu : Uniform g.map base len c) :
    (∀ ty, c.allocated = false → c.type = .nonExistent → ty ≠ .nonExistent → ∃ g', g.add ty base len = (.ok (), g')) ∧
    (c.allocated = false → c.type ≠ .nonExistent → ∃ g', g.remove base len = (.ok (), g')) ∧
    (c.allocated = true → ∃ g', g.free base len = (.ok (), g')) := by
  have hi := ioReachable_inv hr
  have hb := ioBounds hi hu
  have hW := hi.ltW
  have key : ∀ {tr : IoCell → Option IoCell} {r : IoRet Unit} {c' : IoCell}, IoEffect g base len tr r → tr c = some c' →
      ∃ g', r = (.ok (), g') := by
    intro tr r c' h ht
    cases h with
    | ok _ _ g' => exact ⟨g', rfl⟩
    | err e g' _ _ _ h1 => exact absurd hroom (h1 (by omega) ⟨c, c', hu, ht⟩)
  refine ⟨fun ty h1 h2 h3 => ?_, fun h1 h2 => ?_, fun h1 => ?_⟩
  · exact key (ioAdd_effect hi hl) (c' := { c with type := ty }) (by unfold ioAddTr; rw [if_pos ⟨h1, h2, h3⟩])
  · exact key (ioRemove_effect hi hl) (c' := { c with type := .nonExistent }) (by unfold ioRemoveTr; rw [if_pos ⟨h1, h2⟩])
  · have hcell := ((ready_inv hi).1.cells base c (hu.2 base (Nat.le_refl _) (by omega)) h1).1
    exact key (ioFree_effect hi hl) (c' := { c with allocated := false, image := 0, device := 0 }) (by
      unfold ioFreeTr; rw [if_pos ⟨h1, hcell⟩])

theorem io_allocate_succeeds (hr : IoReachable g) (hroom : g.Room) {at_ : AllocType} {ty : IoType} {shift image a : Nat}
    {device : Option Nat} (hq : IoOp.InRange (.allocate at_ ty shift len image device)) (him : image ≠ 0)
    (ha : ioHit g at_ ty shift len a) : ∃ addr g', g.allocate at_ ty shift len image device = (.ok addr, g') := by
  have he := ioAllocate_spec (ioReachable_inv hr) hq
  revert he
  generalize g.allocate at_ ty shift len image device = r
  intro he
  cases he with
  | ok addr c g' => exact ⟨addr, g', rfl⟩
  | err e g' _ _ _ h => exact absurd hroom (h ⟨a, ha, him⟩)

/-! ### A concrete history -/

def ioDemo : List IoOp :=
  [.add .io 0x60 0x10, .add .reserved 0xCF8 8, .add .io 0x1000 0x1000, .allocate (.bottomUp none) .io 4 0x10 9 none,
   .allocate (.topDown (some 0x17FF)) .io 8 0x100 7 (some 3), .free 0x60 8, .remove 0xCFC 4]

def ioDemoGcd : Io := (Io.start 16).run ioDemo

theorem ioDemo_reachable : IoReachable ioDemoGcd := by
  refine ⟨16, ioDemo, ?_, rfl⟩
  intro op hop
  simp only [ioDemo, List.mem_cons, List.not_mem_nil, or_false] at hop
  rcases hop with h | h | h | h | h | h | h <;> subst h <;> simp [IoOp.InRange, W]

example : ioDemoGcd.map.map (fun b => (b.base, b.len, b.st.allocated, b.st.image)) =
    [(0, 0x60, false, 0), (0x60, 8, false, 0), (0x68, 8, true, 9), (0x70, 0xC88, false, 0), (0xCF8, 4, false, 0),
     (0xCFC, 0x304, false, 0), (0x1000, 0x700, false, 0), (0x1700, 0x100, true, 7), (0x1800, 0x800, false, 0),
     (0x2000, 0xE000, false, 0)] := by decide +kernel

example : ioDemoGcd.Room ∧ (ioDemoGcd.allocate (.bottomUp (some 0x1100)) .io 4 0x10 9 none).1 = .ok 0x1000 ∧
    (ioDemoGcd.allocate (.topDown none) .io 4 0x10 9 none).1 = .ok 0x1FF0 ∧
    (ioDemoGcd.allocate (.address 0x1800) .io 4 0x10 9 none).1 = .ok 0x1800 ∧ (ioDemoGcd.free 0x1740 0x10).1 = .ok () := by
  unfold Io.Room; decide +kernel

end Verif.Gcd
