/-
Model of the memory the streams own: what `ti_*_stream_new` asks for, what it gives back when a request fails, and what
`ti_*_stream_free` releases. Values are left out; only blocks of memory are followed.
-/
import Verif.Core.UB

namespace Verif.Alloc

/-- The heap: how many blocks have been asked for so far, and the blocks that are allocated. -/
structure Heap where
  asked : Nat
  live : List Nat

/-- A stream: the block of the structure itself, and the blocks its members own, newest first. -/
structure Obj where
  self : Nat
  owned : List Nat

/-- What the code does not control: which requests fail, whether the options are refused, and how many blocks the default constructor
of a standard container (`std::deque`, `std::queue`) asks for (none in some libraries, two in libstdc++). -/
structure Env where
  fails : Nat → Bool
  refused : Bool
  perContainer : Nat

/-- How a call ends: a stream was made; a code other than `TI_OUT_OF_MEMORY`; `TI_OUT_OF_MEMORY`; an exception. -/
inductive End where
  | made (o : Obj)
  | returned
  | oom
  | thrown

/-- `malloc`, `new`. -/
def alloc (e : Env) (h : Heap) : Option Nat × Heap :=
  if e.fails h.asked then (none, ⟨h.asked + 1, h.live⟩) else (some h.asked, ⟨h.asked + 1, h.asked :: h.live⟩)

/-- `free`, `delete`: releasing what is not allocated is undefined behaviour. -/
def release (b : Nat) (h : Heap) : M Heap := if b ∈ h.live then .ok ⟨h.asked, h.live.erase b⟩ else .error .badPtr

/-- Several. -/
def releaseAll : List Nat → Heap → M Heap
  | [], h => .ok h
  | b :: bs, h => do releaseAll bs (← release b h)

/-- `delete` of a stream by a pointer of its own type: the members' destructors, then the structure. -/
def delete (o : Obj) (h : Heap) : M Heap := releaseAll (o.owned ++ [o.self]) h

/-- Allocate `n` blocks for members of `o`; the flag says whether all were had. -/
def grow (e : Env) : Nat → Obj → Heap → Bool × Obj × Heap
  | 0, o, h => (true, o, h)
  | n + 1, o, h =>
    match alloc e h with
    | (none, h) => (false, o, h)
    | (some b, h) => grow e n ⟨o.self, b :: o.owned⟩ h

/-- What a `catch (std::bad_alloc&)` does before `return TI_OUT_OF_MEMORY`: `delete ptr`; nothing; `delete *stream`, where `*stream` has
the type of the base, which has no virtual destructor (`ti_stream` is declared by codegen.py:105). -/
inductive Handler where
  | delete
  | keep
  | deleteBase

/-- The statements of `ti_*_stream_new` that matter: the option checks; `new` (`std::nothrow` with a test, or throwing) of a structure with so many
standard containers; `resize` of a member; `try` around so many `resize` calls, with its handler. -/
inductive Cmd where
  | check
  | object (nothrow : Bool) (containers : Nat)
  | member
  | guarded (n : Nat) (h : Handler)

/-- Run them. A constructor that throws gives back what it had (the language sees to that). -/
def exec (e : Env) : List Cmd → Option Obj → Heap → M (End × Heap)
  | [], some o, h => .ok (.made o, h)
  | [], none, h => .ok (.returned, h)
  | .check :: cs, o, h => if e.refused then .ok (.returned, h) else exec e cs o h
  | .object nothrow containers :: cs, _, h =>
    match alloc e h with
    | (none, h) => .ok (if nothrow then .oom else .thrown, h)
    | (some b, h) =>
      match grow e (containers * e.perContainer) ⟨b, []⟩ h with
      | (false, o, h) => do return (.thrown, ← delete o h)
      | (true, o, h) => exec e cs (some o) h
  | .member :: cs, o, h =>
    match o with
    | none => .error .badPtr
    | some o =>
      match grow e 1 o h with
      | (false, _, h) => .ok (.thrown, h)
      | (true, o, h) => exec e cs (some o) h
  | .guarded n handler :: cs, o, h =>
    match o with
    | none => .error .badPtr
    | some o =>
      match grow e n o h with
      | (false, o, h) =>
        match handler with
        | .delete => do return (.oom, ← delete o h)
        | .keep => .ok (.oom, h)
        | .deleteBase => .error .badPtr
      | (true, o, h) => exec e cs (some o) h

/-- `ti_*_stream_new` and `ti_*_stream_free`; the flag says that the latter deletes by a pointer to the base. -/
structure StreamMem where
  new : List Cmd
  freesBase : Bool

/-- Open a stream. -/
def StreamMem.open_ (m : StreamMem) (e : Env) (h : Heap) : M (End × Heap) := exec e m.new none h

/-- Free a stream. -/
def StreamMem.free (m : StreamMem) (o : Obj) (h : Heap) : M Heap := if m.freesBase then .error .badPtr else delete o h

/-- `ti_ahma_stream_new`, ahma.cc:69-86, and `ti_ahma_stream_free`, ahma.cc:88-90. -/
def ahmaMem : StreamMem := ⟨[.check, .object true 0, .member], false⟩

/-- `ti_arsi_stream_new`, arsi.cc:164-181, and `ti_arsi_stream_free`, arsi.cc:183-185. -/
def arsiMem : StreamMem := ⟨[.check, .object true 0, .member], false⟩

/-- `ti_atr_stream_new`, atr.cc:103-117, and `ti_atr_stream_free`, atr.cc:185-187. -/
def atrMem : StreamMem := ⟨[.check, .object true 0], false⟩

/-- `ti_bf2_stream_new`, bf2.cc:89-112, and `ti_bf2_stream_free`, bf2.cc:114-116. -/
def bf2Mem : StreamMem := ⟨[.check, .object true 0], false⟩

/-- `ti_bf3_stream_new`, bf3.cc:99-124, and `ti_bf3_stream_free`, bf3.cc:126-128. -/
def bf3Mem : StreamMem := ⟨[.check, .object true 0], false⟩

/-- `ti_ce_stream_new`, ce.cc:175-202, and `ti_ce_stream_free`, ce.cc:204-206. -/
def ceMem : StreamMem := ⟨[.check, .object false 0, .guarded 2 .delete], false⟩

/-- `ti_cmi_stream_new`, cmi.cc:138-156, and `ti_cmi_stream_free`, cmi.cc:158-160. -/
def cmiMem : StreamMem := ⟨[.check, .object true 0, .member, .member], true⟩

/-- `ti_copp_stream_new`, copp.cc:139-174, and `ti_copp_stream_free`, copp.cc:176-178. -/
def coppMem : StreamMem := ⟨[.check, .object false 0, .guarded 2 .delete], false⟩

/-- `ti_dwma_stream_new`, dwma.cc:116-147, and `ti_dwma_stream_free`, dwma.cc:149-151. -/
def dwmaMem : StreamMem := ⟨[.check, .object true 0, .member, .guarded 1 .keep], false⟩

/-- `ti_edcf_stream_new`, edcf.cc:82-101, and `ti_edcf_stream_free`, edcf.cc:103-105. -/
def edcfMem : StreamMem := ⟨[.check, .object true 1, .member, .member], false⟩

/-- `ti_ehma_stream_new`, ehma.cc:107-126, and `ti_ehma_stream_free`, ehma.cc:128-130. -/
def ehmaMem : StreamMem := ⟨[.check, .object true 0], false⟩

/-- `ti_emsd_stream_new`, emsd.cc:129-152, and `ti_emsd_stream_free`, emsd.cc:154-156. -/
def emsdMem : StreamMem := ⟨[.check, .object true 0, .member], false⟩

/-- `ti_er_stream_new`, er.cc:81-99, and `ti_er_stream_free`, er.cc:101-103. -/
def erMem : StreamMem := ⟨[.check, .object true 0, .member], false⟩

/-- `ti_evwma_stream_new`, evwma.cc:102-126, and `ti_evwma_stream_free`, evwma.cc:128-130. -/
def evwmaMem : StreamMem := ⟨[.check, .object true 0, .guarded 1 .keep], false⟩

/-- `ti_fi_stream_new`, fi.cc:62-74, and `ti_fi_stream_free`, fi.cc:76-78. -/
def fiMem : StreamMem := ⟨[.check, .object true 0], false⟩

/-- `ti_frama_stream_new`, frama.cc:139-159, and `ti_frama_stream_free`, frama.cc:161-163. -/
def framaMem : StreamMem := ⟨[.check, .object true 2], false⟩

/-- `ti_gf1_stream_new`, gf1.cc:87-108, and `ti_gf1_stream_free`, gf1.cc:110-112. -/
def gf1Mem : StreamMem := ⟨[.check, .object true 0], false⟩

/-- `ti_gf2_stream_new`, gf2.cc:100-123, and `ti_gf2_stream_free`, gf2.cc:125-127. -/
def gf2Mem : StreamMem := ⟨[.check, .object true 0], false⟩

/-- `ti_gf3_stream_new`, gf3.cc:102-126, and `ti_gf3_stream_free`, gf3.cc:128-130. -/
def gf3Mem : StreamMem := ⟨[.check, .object true 0], false⟩

/-- `ti_gf4_stream_new`, gf4.cc:118-149, and `ti_gf4_stream_free`, gf4.cc:151-153. -/
def gf4Mem : StreamMem := ⟨[.check, .object true 0], false⟩

/-- `ti_hd_stream_new`, hd.cc:163-172, and `ti_hd_stream_free`, hd.cc:174-176. -/
def hdMem : StreamMem := ⟨[.object true 0], false⟩

/-- `ti_hf_stream_new`, hf.cc:118-139, and `ti_hf_stream_free`, hf.cc:141-143. -/
def hfMem : StreamMem := ⟨[.check, .object true 0, .member, .member], false⟩

/-- `ti_hfema_stream_new`, hfema.cc:138-167, and `ti_hfema_stream_free`, hfema.cc:169-171. -/
def hfemaMem : StreamMem := ⟨[.check, .object true 0, .guarded 2 .deleteBase], false⟩

/-- `ti_hfsma_stream_new`, hfsma.cc:135-167, and `ti_hfsma_stream_free`, hfsma.cc:169-171. -/
def hfsmaMem : StreamMem := ⟨[.check, .object true 0, .guarded 3 .deleteBase], false⟩

/-- `ti_hurst_stream_new`, hurst.cc:136-158, and `ti_hurst_stream_free`, hurst.cc:160-162. -/
def hurstMem : StreamMem := ⟨[.check, .object true 0, .guarded 1 .delete], false⟩

/-- `ti_hwma_stream_new`, hwma.cc:87-103, and `ti_hwma_stream_free`, hwma.cc:105-107. -/
def hwmaMem : StreamMem := ⟨[.check, .object true 0], false⟩

/-- `ti_ichi_stream_new`, ichi.cc:281-312, and `ti_ichi_stream_free`, ichi.cc:314-316. -/
def ichiMem : StreamMem := ⟨[.check, .object true 0, .guarded 4 .deleteBase], false⟩

/-- `ti_idwma_stream_new`, idwma.cc:93-122, and `ti_idwma_stream_free`, idwma.cc:124-126. -/
def idwmaMem : StreamMem := ⟨[.check, .object true 0, .member, .member], false⟩

/-- `ti_kc_stream_new`, kc.cc:89-109, and `ti_kc_stream_free`, kc.cc:111-113. -/
def kcMem : StreamMem := ⟨[.check, .object false 0], false⟩

/-- `ti_lf_stream_new`, lf.cc:67-82, and `ti_lf_stream_free`, lf.cc:84-86. -/
def lfMem : StreamMem := ⟨[.check, .object true 0], false⟩

/-- `ti_lma_stream_new`, lma.cc:98-123, and `ti_lma_stream_free`, lma.cc:125-127. -/
def lmaMem : StreamMem := ⟨[.check, .object true 0, .guarded 1 .delete], false⟩

/-- `ti_mama_stream_new`, mama.cc:223-241, and `ti_mama_stream_free`, mama.cc:243-245. -/
def mamaMem : StreamMem := ⟨[.check, .object true 0], false⟩

/-- `ti_mesastoch_stream_new`, mesastoch.cc:203-235, and `ti_mesastoch_stream_free`, mesastoch.cc:237-239. -/
def mesastochMem : StreamMem := ⟨[.check, .object true 0, .guarded 1 .delete], false⟩

/-- `ti_mgdyn_stream_new`, mgdyn.cc:75-90, and `ti_mgdyn_stream_free`, mgdyn.cc:92-94. -/
def mgdynMem : StreamMem := ⟨[.object true 0], false⟩

/-- `ti_mhlma_stream_new`, mhlma.cc:180-200, and `ti_mhlma_stream_free`, mhlma.cc:202-204. -/
def mhlmaMem : StreamMem := ⟨[.check, .object true 0, .member, .member], false⟩

/-- `ti_pbands_stream_new`, pbands.cc:131-160, and `ti_pbands_stream_free`, pbands.cc:162-164. -/
def pbandsMem : StreamMem := ⟨[.check, .object false 0, .guarded 3 .delete], false⟩

/-- `ti_pc_stream_new`, pc.cc:107-129, and `ti_pc_stream_free`, pc.cc:131-133. -/
def pcMem : StreamMem := ⟨[.check, .object true 0, .guarded 2 .delete], false⟩

/-- `ti_pfe_stream_new`, pfe.cc:123-151, and `ti_pfe_stream_free`, pfe.cc:153-155. -/
def pfeMem : StreamMem := ⟨[.check, .object true 0, .guarded 2 .delete], false⟩

/-- `ti_posc_stream_new`, posc.cc:152-184, and `ti_posc_stream_free`, posc.cc:186-188. -/
def poscMem : StreamMem := ⟨[.check, .object false 0, .guarded 3 .delete], false⟩

/-- `ti_pvt_stream_new`, pvt.cc:61-71, and `ti_pvt_stream_free`, pvt.cc:73-75. -/
def pvtMem : StreamMem := ⟨[.object true 0], false⟩

/-- `ti_pwma_stream_new`, pwma.cc:87-115, and `ti_pwma_stream_free`, pwma.cc:117-119. -/
def pwmaMem : StreamMem := ⟨[.check, .object true 0, .guarded 1 .keep], false⟩

/-- `ti_rema_stream_new`, rema.cc:71-91, and `ti_rema_stream_free`, rema.cc:93-95. -/
def remaMem : StreamMem := ⟨[.check, .object true 0], false⟩

/-- `ti_rmf_stream_new`, rmf.cc:87-108, and `ti_rmf_stream_free`, rmf.cc:110-112. -/
def rmfMem : StreamMem := ⟨[.check, .object true 1], false⟩

/-- `ti_rmi_stream_new`, rmi.cc:103-127, and `ti_rmi_stream_free`, rmi.cc:130-132. -/
def rmiMem : StreamMem := ⟨[.check, .object true 0, .guarded 1 .keep], false⟩

/-- `ti_roof_stream_new`, roof.cc:76-85, and `ti_roof_stream_free`, roof.cc:87-89. -/
def roofMem : StreamMem := ⟨[.object true 0], false⟩

/-- `ti_rvi_stream_new`, rvi.cc:88-120, and `ti_rvi_stream_free`, rvi.cc:122-124. -/
def rviMem : StreamMem := ⟨[.check, .object false 0, .guarded 1 .delete], false⟩

/-- `ti_shmma_stream_new`, shmma.cc:90-107, and `ti_shmma_stream_free`, shmma.cc:109-111. -/
def shmmaMem : StreamMem := ⟨[.check, .object true 0, .member], false⟩

/-- `ti_sma_stream_new`, sma.cc:64-87, and `ti_sma_stream_free`, sma.cc:89-91. -/
def smaMem : StreamMem := ⟨[.check, .object true 0, .guarded 1 .delete], false⟩

/-- `ti_smi_stream_new`, smi.cc:192-219, and `ti_smi_stream_free`, smi.cc:222-224. -/
def smiMem : StreamMem := ⟨[.check, .object false 0, .guarded 2 .delete], false⟩

/-- `ti_ssmooth_stream_new`, ssmooth.cc:67-76, and `ti_ssmooth_stream_free`, ssmooth.cc:78-80. -/
def ssmoothMem : StreamMem := ⟨[.object true 0], false⟩

/-- `ti_swma_stream_new`, swma.cc:100-128, and `ti_swma_stream_free`, swma.cc:130-132. -/
def swmaMem : StreamMem := ⟨[.check, .object true 0, .guarded 1 .keep], false⟩

/-- `ti_t3_stream_new`, t3.cc:143-161, and `ti_t3_stream_free`, t3.cc:163-165. -/
def t3Mem : StreamMem := ⟨[.check, .object true 0], false⟩

/-- `ti_tsi_stream_new`, tsi.cc:109-125, and `ti_tsi_stream_free`, tsi.cc:127-129. -/
def tsiMem : StreamMem := ⟨[.check, .object true 0], false⟩

/-- `ti_vi_stream_new`, vi.cc:125-140, and `ti_vi_stream_free`, vi.cc:142-144. -/
def viMem : StreamMem := ⟨[.check, .object true 3], false⟩

/-- `ti_vwap_stream_new`, vwap.cc:111-138, and `ti_vwap_stream_free`, vwap.cc:140-142. -/
def vwapMem : StreamMem := ⟨[.check, .object true 0, .guarded 4 .delete], false⟩

end Verif.Alloc
