/-!
Model of the containers of metadata: where an entry is in memory and on the device, what a flush of the
container writes, what a load restores, and the checksums that a load checks.
Sources: `/repo/src/metadata/metadata_raw.c`, `/repo/src/metadata/metadata_raw_dynamic.c`.

Bytes are numbers; a page of the device is a function from offsets below 4096. A flush or load is the
sequence of the copies of its pages (that all pages are transferred once and errors are told is C16).
-/

namespace Verif.MetaRaw

/-- `struct ocf_metadata_raw`, `/repo/src/metadata/metadata_raw.h:67-80`: size and number of the entries,
two copies or one, first page on the device. -/
structure Raw where
  entrySize : Nat
  entries : Nat
  flapping : Bool
  offset : Nat

/-- `PAGE_SIZE`, `/repo/env/posix/ocf_env.h:45`. -/
def pageSize : Nat := 4096

/-- `entries_in_page`, `/repo/src/metadata/metadata.c:515`, `:702`. -/
def Raw.inPage (r : Raw) : Nat := pageSize / r.entrySize

/-- `ssd_pages`, `/repo/src/metadata/metadata.c:527-528`, `:290-291`. -/
def Raw.pages (r : Raw) : Nat := (r.entries + r.inPage - 1) / r.inPage

/-- `_raw_ram_segment_size_on_ssd`, `/repo/src/metadata/metadata_raw.c:38-43`, and
`raw_dynamic_segment_size_on_ssd`, `/repo/src/metadata/metadata_raw_dynamic.c:41-46`: one copy, up to a
multiple of 32 pages. -/
def Raw.segSize (r : Raw) : Nat := (r.pages + 31) / 32 * 32

/-- `_raw_ram_size_on_ssd`, `/repo/src/metadata/metadata_raw.c:165-170`. -/
def Raw.sizeOnSsd (r : Raw) : Nat := r.segSize * (if r.flapping then 2 else 1)

/-- First page of a copy, `/repo/src/metadata/metadata_raw.c:339-340`, `:414-415`,
`/repo/src/metadata/metadata_raw_dynamic.c:399-401`, `:568-569`. -/
def Raw.base (r : Raw) (idx : Nat) : Nat := r.offset + r.segSize * idx

/-- Contents of a page of the device or of a buffer, `/repo/env/posix/ocf_env.h:45`. -/
abbrev Page := Nat → Nat

/-- The device, pages by number, `/repo/src/metadata/metadata_io.c:222-223`. -/
abbrev Dev := Nat → Page

/-- set one page, `/repo/src/metadata/metadata_io.c:222-223`. -/
def setPage (d : Dev) (n : Nat) (p : Page) : Dev := fun x => if x = n then p else d x

/-! ## Container in one piece of memory -/

/-- `_RAW_RAM_ADDR`, `/repo/src/metadata/metadata_raw.c:70-71`, relative to the pool. -/
def Raw.addr (r : Raw) (line : Nat) : Nat := r.entrySize * line

/-- `_raw_ram_access`, `/repo/src/metadata/metadata_raw.c:203-209`; `none`: assertion. -/
def Raw.access (r : Raw) (entry : Nat) : Option Nat :=
  if entry < r.entries then some (r.addr entry) else none

/-- `_raw_ram_page`, `/repo/src/metadata/metadata_raw.c:193-198`. -/
def Raw.page (r : Raw) (entry : Nat) : Nat := entry / r.inPage

/-- `size` of `/repo/src/metadata/metadata_raw.c:214`, `:364`, `:487`. -/
def Raw.used (r : Raw) : Nat := r.entrySize * r.inPage

/-- `line` of `/repo/src/metadata/metadata_raw.c:220`, `:372`, `:491`, a 32-bit number. -/
def Raw.firstLine (r : Raw) (page : Nat) : Nat := page * r.inPage % 2 ^ 32

/-- `_raw_ram_flush_all_fill`, `/repo/src/metadata/metadata_raw.c:359-385`, and
`_raw_ram_flush_do_asynch_fill`, `/repo/src/metadata/metadata_raw.c:473-504`: the entries of the page, then
zeros. -/
def fill (r : Raw) (mem : Nat → Nat) (page : Nat) : Page := fun o =>
  if o < r.used then mem (r.addr (r.firstLine page) + o) else 0

/-- `_raw_ram_drain_page`, `/repo/src/metadata/metadata_raw.c:211-229`. -/
def drain (r : Raw) (mem : Nat → Nat) (page : Nat) (p : Page) : Nat → Nat := fun a =>
  if r.addr (r.firstLine page) ≤ a ∧ a < r.addr (r.firstLine page) + r.used then
    p (a - r.addr (r.firstLine page))
  else mem a

/-- A write of the pages `ps` of the container: `_raw_ram_flush_all`, `/repo/src/metadata/metadata_raw.c:399-423`,
with all pages; `_raw_ram_flush_do_asynch`, `/repo/src/metadata/metadata_raw.c:542-640`, with the pages of a
request. -/
def flushPages (r : Raw) (mem : Nat → Nat) (idx : Nat) (ps : List Nat) (d : Dev) : Dev :=
  ps.foldl (fun d k => setPage d (r.base idx + k) (fill r mem k)) d

/-- `_raw_ram_flush_all`, `/repo/src/metadata/metadata_raw.c:399-423`. -/
def flushAll (r : Raw) (mem : Nat → Nat) (idx : Nat) (d : Dev) : Dev :=
  flushPages r mem idx (List.range r.pages) d

/-- `_raw_ram_load_all`, `/repo/src/metadata/metadata_raw.c:323-347`, with `_raw_ram_load_all_drain`, `:301-309`. -/
def loadAll (r : Raw) (d : Dev) (idx : Nat) (mem : Nat → Nat) : Nat → Nat :=
  (List.range r.pages).foldl (fun m k => drain r m k (d (r.base idx + k))) mem

/-- `raw_ram_zero`, `/repo/src/metadata/metadata_raw.c:270-289`, with `:247-253`. -/
def zeroAll (r : Raw) (d : Dev) : Dev :=
  (List.range r.sizeOnSsd).foldl (fun d k => setPage d (r.offset + k) (fun _ => 0)) d

/-- the 4096 bytes of a page, as passed to `env_crc32`, `/repo/src/metadata/metadata_raw.c:183`. -/
def bytes (p : Page) : List Nat := (List.range pageSize).map p

/-- `_raw_ram_checksum`, `/repo/src/metadata/metadata_raw.c:175-188`; `crc` is `env_crc32`. -/
def checksum (crc : Nat → List Nat → Nat) (r : Raw) (mem : Nat → Nat) : Nat :=
  (List.range r.pages).foldl (fun c i => crc c (bytes (fun o => mem (pageSize * i + o)))) 0

/-! ## Container whose pages are allocated when first used (the UUIDs of the cores) -/

/-- `struct _raw_ctrl`, `/repo/src/metadata/metadata_raw_dynamic.c:72-76`. -/
structure Dyn where
  pages : Nat → Option Page
  count : Int

/-- `raw_dynamic_init`, `/repo/src/metadata/metadata_raw_dynamic.c:157-198`. -/
def Dyn.init : Dyn := ⟨fun _ => none, 0⟩

/-- set a pointer of the table, `/repo/src/metadata/metadata_raw_dynamic.c:112`, `:302`, `:312`. -/
def setSlot (f : Nat → Option Page) (k : Nat) (v : Option Page) : Nat → Option Page :=
  fun x => if x = k then v else f x

/-- `_raw_dynamic_get_item`, `/repo/src/metadata/metadata_raw_dynamic.c:78-125`: table afterwards, page and
offset in it of the entry. `ok`: whether memory is to be had. -/
def Dyn.get (r : Raw) (s : Dyn) (entry : Nat) (ok : Bool) : Dyn × Option (Nat × Nat) :=
  let page := entry / r.inPage
  let off := entry % r.inPage * r.entrySize
  match s.pages page with
  | some _ => (s, some (page, off))
  | none =>
    if ok then (⟨setSlot s.pages page (some (fun _ => 0)), s.count + 1⟩, some (page, off)) else (s, none)

/-- The caller stores a value through the pointer it got, `/repo/src/mngt/ocf_mngt_core.c:63-75`. -/
def Dyn.put (s : Dyn) (page off : Nat) (v : Nat) : Dyn :=
  match s.pages page with
  | some p => { s with pages := setSlot s.pages page (some (fun o => if o = off then v else p o)) }
  | none => s

/-- `env_memcmp` with a page of zeros, `/repo/src/metadata/metadata_raw_dynamic.c:292`. -/
def isZero (p : Page) : Bool := (List.range pageSize).all (fun o => p o == 0)

/-- One pass of the loop of `raw_dynamic_update_pages`, `/repo/src/metadata/metadata_raw_dynamic.c:283-316`,
when there is memory for the buffer. -/
def Dyn.load1 (s : Dyn) (k : Nat) (p : Page) : Dyn :=
  if isZero p then
    match s.pages k with
    | some _ => ⟨setSlot s.pages k none, s.count - 1⟩
    | none => s
  else ⟨setSlot s.pages k (some p), s.count + 1⟩

/-- `raw_dynamic_update_pages`, `/repo/src/metadata/metadata_raw_dynamic.c:274-319`: the pages `page ...` from
`src`; `mem n`: memory for the buffer is to be had when page `n` needs one. `spare`: a buffer left from a page of
zeros. Result: table, spare buffer, success. -/
def Dyn.update (mem : Nat → Bool) (s : Dyn) (spare : Bool) (page : Nat) (src : Nat → Page) :
    Nat → Dyn × Bool × Bool
  | 0 => (s, spare, true)
  | n + 1 =>
    if spare || mem page then
      Dyn.update mem (s.load1 page (src page)) (isZero (src page)) (page + 1) src n
    else (s, false, false)

/-- `raw_dynamic_load_all`, `/repo/src/metadata/metadata_raw_dynamic.c:443-498`, with `raw_dynamic_load_all_read`
(`:392-412`) and `raw_dynamic_load_all_update` (`:414-441`): 128 pages at a time from page `i` on. -/
def Dyn.loadFrom (mem : Nat → Bool) (r : Raw) (d : Dev) (idx : Nat) (fuel : Nat) (s : Dyn) (spare : Bool)
    (i : Nat) : Dyn × Bool :=
  match fuel with
  | 0 => (s, false)
  | fuel + 1 =>
    let count := min 128 (r.pages - i)
    let x := Dyn.update mem s spare i (fun k => d (r.base idx + k)) count
    if !x.2.2 || decide (r.pages ≤ i + count) then (x.1, x.2.2)
    else Dyn.loadFrom mem r d idx fuel x.1 x.2.1 (i + count)

/-- `raw_dynamic_load_all`, `/repo/src/metadata/metadata_raw_dynamic.c:443-498`. -/
def Dyn.loadAll (mem : Nat → Bool) (r : Raw) (d : Dev) (idx : Nat) (s : Dyn) : Dyn × Bool :=
  Dyn.loadFrom mem r d idx (r.pages + 1) s false 0

/-- `raw_dynamic_flush_all_fill`, `/repo/src/metadata/metadata_raw_dynamic.c:514-541`. -/
def Dyn.fill (s : Dyn) (k : Nat) : Page := (s.pages k).getD (fun _ => 0)

/-- `raw_dynamic_flush_all`, `/repo/src/metadata/metadata_raw_dynamic.c:552-578`. -/
def Dyn.flushAll (r : Raw) (s : Dyn) (idx : Nat) (d : Dev) : Dev :=
  (List.range r.pages).foldl (fun d k => setPage d (r.base idx + k) (s.fill k)) d

/-- `raw_dynamic_checksum`, `/repo/src/metadata/metadata_raw_dynamic.c:235-250`. -/
def Dyn.checksum (crc : Nat → List Nat → Nat) (r : Raw) (s : Dyn) : Nat :=
  (List.range r.pages).foldl (fun c i =>
    match s.pages i with
    | some p => crc c (bytes p)
    | none => c) 0

/-- `ocf_metadata_calculate_crc`, `/repo/src/metadata/metadata_segment.c:97-108`, before the flush, and
`ocf_metadata_check_crc`, `/repo/src/metadata/metadata_segment.c:73-95`, after the load: whether the loaded
container is accepted. -/
def Dyn.accepted (crc : Nat → List Nat → Nat) (r : Raw) (saved loaded : Dyn) : Bool :=
  loaded.checksum crc r == saved.checksum crc r

end Verif.MetaRaw
