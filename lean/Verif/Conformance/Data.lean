import Verif.Conformance.Write
/-!
The files are those of `/repo/test-data`, written by NumPy and SciPy: a file is one number, its bytes from last to
first.  The members of `.npz` files are given unpacked, since the model's archives are lists of members.
-/
set_option autoImplicit false
namespace Npyz.Conformance

/-- `c-order.npy` -/
def file_c_order_npy : Bytes :=
  leBytes 320 0x0000000000000006000000000000000600000000000000060000000000000006000000000000000500000000000000050000000000000005000000000000000500000000000000040000000000000004000000000000000400000000000000040000000000000003000000000000000300000000000000030000000000000003000000000000000200000000000000020000000000000002000000000000000200000000000000010000000000000001000000000000000100000000000000010a202020202020202020202020202020202020202020202020202020202020202020202020202020202020202020202020202020202020207d202c2934202c33202c3228203a27657061687327202c65736c6146203a27726564726f5f6e617274726f6627202c2738693c27203a277263736564277b0076000159504d554e93

/-- `f-order.npy` -/
def file_f_order_npy : Bytes :=
  leBytes 320 0x0000000000000006000000000000000300000000000000050000000000000002000000000000000400000000000000010000000000000006000000000000000300000000000000050000000000000002000000000000000400000000000000010000000000000006000000000000000300000000000000050000000000000002000000000000000400000000000000010000000000000006000000000000000300000000000000050000000000000002000000000000000400000000000000010a20202020202020202020202020202020202020202020202020202020202020202020202020202020202020202020202020202020202020207d202c2934202c33202c3228203a27657061687327202c65757254203a27726564726f5f6e617274726f6627202c2738693c27203a277263736564277b0076000159504d554e93

/-- `plain.npy` -/
def file_plain_npy : Bytes :=
  leBytes 112 0x4002666666666666c018000000000000400c0000000000003ff00000000000000a2020202020202020202020207d202c292c3428203a27657061687327202c65736c6146203a27726564726f5f6e617274726f6627202c2738663c27203a277263736564277b0046000159504d554e93

/-- `structured.npy` -/
def file_structured_npy : Bytes :=
  leBytes 144 0x00000000000000054046666600000002000000000000000440200000000000010a202020202020207d202c292c3228203a27657061687327202c65736c6146203a27726564726f5f6e617274726f6627202c5d292738693c27202c27632728202c292734663c27202c27622728202c292734693c27202c276127285b203a277263736564277b0066000159504d554e93

/-- `pickle.npy` -/
def file_pickle_npy : Bytes :=
  leBytes 317 0x2e62117174654e10717d0f717d0e717265626d756e00000006580000000000000c4047014b280d715d89620c71743f4bffffffff4affffffff4a4e4e4e0b717c0000000158034b280a7152097187014b004b0871384f000000025807710a65707974640a79706d756e63067186034b024b014b280571520471870371620143027185004b01710a7961727261646e0a79706d756e6300710a7463757274736e6f6365725f0a796172726169746c756d2e65726f632e79706d756e6303800a20202020202020202020202020202020202020202020202020202020202020202020202020202020202020202020202020202020202020202020207d202c2933202c3228203a27657061687327202c65736c6146203a27726564726f5f6e617274726f6627202c274f7c27203a277263736564277b0076000159504d554e93

/-- `unicode/ok.npy` -/
def file_unicode_ok_npy : Bytes :=
  leBytes 160 0x00000000000000000000000000000074000000750000006f000003b2000003b10a2020202020202020202020202020202020202020202020202020202020202020202020202020202020202020202020202020202020202020202020207d202c292c3128203a27657061687327202c65736c6146203a27726564726f5f6e617274726f6627202c2738553c27203a277263736564277b0076000159504d554e93

/-- `unicode/surrogate.npy` -/
def file_unicode_surrogate_npy : Bytes :=
  leBytes 132 0x0000d8050a2020202020202020202020202020202020202020202020202020202020202020202020202020202020202020202020202020202020202020202020207d202c292c3128203a27657061687327202c65736c6146203a27726564726f5f6e617274726f6627202c2731553c27203a277263736564277b0076000159504d554e93

/-- `unicode/surrogate-pair.npy` -/
def file_unicode_surrogate_pair_npy : Bytes :=
  leBytes 136 0x0000dd1e0000d8340a2020202020202020202020202020202020202020202020202020202020202020202020202020202020202020202020202020202020202020202020207d202c292c3128203a27657061687327202c65736c6146203a27726564726f5f6e617274726f6627202c2732553c27203a277263736564277b0076000159504d554e93

/-- `uncompressed.npz` -/
def file_uncompressed_npz : NpzArchive := ⟨[
  (txt "ints.npy", leBytes 160 0x00000000000000040000000000000003000000000000000200000000000000010a2020202020202020202020202020202020202020202020202020202020202020202020202020202020202020202020202020202020202020202020207d202c292c3428203a27657061687327202c65736c6146203a27726564726f5f6e617274726f6627202c2738693c27203a277263736564277b0076000159504d554e93),
  (txt "floats.npy", leBytes 144 0x40000000000000003ff00000000000000a202020202020202020202020202020202020202020202020202020202020202020202020202020202020202020202020202020202020202020207d202c2931202c3228203a27657061687327202c65736c6146203a27726564726f5f6e617274726f6627202c2738663c27203a277263736564277b0076000159504d554e93)]⟩

/-- `compressed.npz` -/
def file_compressed_npz : NpzArchive := ⟨[
  (txt "ints.npy", leBytes 160 0x00000000000000040000000000000003000000000000000200000000000000010a2020202020202020202020202020202020202020202020202020202020202020202020202020202020202020202020202020202020202020202020207d202c292c3428203a27657061687327202c65736c6146203a27726564726f5f6e617274726f6627202c2738693c27203a277263736564277b0076000159504d554e93),
  (txt "floats.npy", leBytes 144 0x40000000000000003ff00000000000000a202020202020202020202020202020202020202020202020202020202020202020202020202020202020202020202020202020202020202020207d202c2931202c3228203a27657061687327202c65736c6146203a27726564726f5f6e617274726f6627202c2738663c27203a277263736564277b0076000159504d554e93)]⟩

/-- `sparse/bsr-bad-ndim.npz` -/
def file_sparse_bsr_bad_ndim_npz : NpzArchive := ⟨[
  (txt "indices.npy", leBytes 148 0x00000001000000000000000000000001000000000a2020202020202020202020202020202020202020202020202020202020202020202020202020202020202020202020202020202020202020202020207d202c292c3528203a27657061687327202c65736c6146203a27726564726f5f6e617274726f6627202c2734693c27203a277263736564277b0076000159504d554e93),
  (txt "indptr.npy", leBytes 144 0x000000050000000300000002000000000a2020202020202020202020202020202020202020202020202020202020202020202020202020202020202020202020202020202020202020202020207d202c292c3428203a27657061687327202c65736c6146203a27726564726f5f6e617274726f6627202c2734693c27203a277263736564277b0076000159504d554e93),
  (txt "format.npy", leBytes 131 0x7273620a20202020202020202020202020202020202020202020202020202020202020202020202020202020202020202020202020202020202020202020202020207d202c2928203a27657061687327202c65736c6146203a27726564726f5f6e617274726f6627202c2733537c27203a277263736564277b0076000159504d554e93),
  (txt "shape.npy", leBytes 144 0x000000000000000600000000000000030a2020202020202020202020202020202020202020202020202020202020202020202020202020202020202020202020202020202020202020202020207d202c292c3228203a27657061687327202c65736c6146203a27726564726f5f6e617274726f6627202c2738693c27203a277263736564277b0076000159504d554e93),
  (txt "data.npy", leBytes 208 0x00000000000000000000000000000007000000000000000000000000000000060000000000000002000000000000000000000000000000000000000000000004000000000000000000000000000000010a202020202020202020202020202020202020202020202020202020202020202020202020202020202020202020202020202020202020202020207d202c2932202c3528203a27657061687327202c65736c6146203a27726564726f5f6e617274726f6627202c2738693c27203a277263736564277b0076000159504d554e93)]⟩

/-- `sparse/bsr-f-order.npz` -/
def file_sparse_bsr_f_order_npz : NpzArchive := ⟨[
  (txt "indices.npy", leBytes 148 0x00000001000000000000000000000001000000000a2020202020202020202020202020202020202020202020202020202020202020202020202020202020202020202020202020202020202020202020207d202c292c3528203a27657061687327202c65736c6146203a27726564726f5f6e617274726f6627202c2734693c27203a277263736564277b0076000159504d554e93),
  (txt "indptr.npy", leBytes 144 0x000000050000000300000002000000000a2020202020202020202020202020202020202020202020202020202020202020202020202020202020202020202020202020202020202020202020207d202c292c3428203a27657061687327202c65736c6146203a27726564726f5f6e617274726f6627202c2734693c27203a277263736564277b0076000159504d554e93),
  (txt "format.npy", leBytes 131 0x7273620a20202020202020202020202020202020202020202020202020202020202020202020202020202020202020202020202020202020202020202020202020207d202c2928203a27657061687327202c65736c6146203a27726564726f5f6e617274726f6627202c2733537c27203a277263736564277b0076000159504d554e93),
  (txt "shape.npy", leBytes 144 0x000000000000000600000000000000030a2020202020202020202020202020202020202020202020202020202020202020202020202020202020202020202020202020202020202020202020207d202c292c3228203a27657061687327202c65736c6146203a27726564726f5f6e617274726f6627202c2738693c27203a277263736564277b0076000159504d554e93),
  (txt "data.npy", leBytes 208 0x00000000000000000000000000000000000000000000000200000000000000000000000000000000000000000000000700000000000000060000000000000000000000000000000400000000000000010a20202020202020202020202020202020202020202020202020202020202020202020202020202020202020202020202020202020202020207d202c2932202c31202c3528203a27657061687327202c65757254203a27726564726f5f6e617274726f6627202c2738693c27203a277263736564277b0076000159504d554e93)]⟩

/-- `sparse/bsr.npz` -/
def file_sparse_bsr_npz : NpzArchive := ⟨[
  (txt "indices.npy", leBytes 148 0x00000001000000000000000000000001000000000a2020202020202020202020202020202020202020202020202020202020202020202020202020202020202020202020202020202020202020202020207d202c292c3528203a27657061687327202c65736c6146203a27726564726f5f6e617274726f6627202c2734693c27203a277263736564277b0076000159504d554e93),
  (txt "indptr.npy", leBytes 144 0x000000050000000300000002000000000a2020202020202020202020202020202020202020202020202020202020202020202020202020202020202020202020202020202020202020202020207d202c292c3428203a27657061687327202c65736c6146203a27726564726f5f6e617274726f6627202c2734693c27203a277263736564277b0076000159504d554e93),
  (txt "format.npy", leBytes 131 0x7273620a20202020202020202020202020202020202020202020202020202020202020202020202020202020202020202020202020202020202020202020202020207d202c2928203a27657061687327202c65736c6146203a27726564726f5f6e617274726f6627202c2733537c27203a277263736564277b0076000159504d554e93),
  (txt "shape.npy", leBytes 144 0x000000000000000600000000000000030a2020202020202020202020202020202020202020202020202020202020202020202020202020202020202020202020202020202020202020202020207d202c292c3228203a27657061687327202c65736c6146203a27726564726f5f6e617274726f6627202c2738693c27203a277263736564277b0076000159504d554e93),
  (txt "data.npy", leBytes 208 0x00000000000000000000000000000007000000000000000000000000000000060000000000000002000000000000000000000000000000000000000000000004000000000000000000000000000000010a202020202020202020202020202020202020202020202020202020202020202020202020202020202020202020202020202020202020207d202c2932202c31202c3528203a27657061687327202c65736c6146203a27726564726f5f6e617274726f6627202c2738693c27203a277263736564277b0076000159504d554e93)]⟩

/-- `sparse/coo-dupes.npz` -/
def file_sparse_coo_dupes_npz : NpzArchive := ⟨[
  (txt "row.npy", leBytes 136 0x00000002000000020a2020202020202020202020202020202020202020202020202020202020202020202020202020202020202020202020202020202020202020202020207d202c292c3228203a27657061687327202c65736c6146203a27726564726f5f6e617274726f6627202c2734693c27203a277263736564277b0076000159504d554e93),
  (txt "col.npy", leBytes 136 0x00000003000000030a2020202020202020202020202020202020202020202020202020202020202020202020202020202020202020202020202020202020202020202020207d202c292c3228203a27657061687327202c65736c6146203a27726564726f5f6e617274726f6627202c2734693c27203a277263736564277b0076000159504d554e93),
  (txt "format.npy", leBytes 131 0x6f6f630a20202020202020202020202020202020202020202020202020202020202020202020202020202020202020202020202020202020202020202020202020207d202c2928203a27657061687327202c65736c6146203a27726564726f5f6e617274726f6627202c2733537c27203a277263736564277b0076000159504d554e93),
  (txt "shape.npy", leBytes 144 0x000000000000000500000000000000050a2020202020202020202020202020202020202020202020202020202020202020202020202020202020202020202020202020202020202020202020207d202c292c3228203a27657061687327202c65736c6146203a27726564726f5f6e617274726f6627202c2738693c27203a277263736564277b0076000159504d554e93),
  (txt "data.npy", leBytes 144 0x0000000000000014000000000000000a0a2020202020202020202020202020202020202020202020202020202020202020202020202020202020202020202020202020202020202020202020207d202c292c3228203a27657061687327202c65736c6146203a27726564726f5f6e617274726f6627202c2738693c27203a277263736564277b0076000159504d554e93)]⟩

/-- `sparse/coo-long.npz` -/
def file_sparse_coo_long_npz : NpzArchive := ⟨[
  (txt "row.npy", leBytes 144 0x000000000000000300000004000000000a2020202020202020202020202020202020202020202020202020202020202020202020202020202020202020202020202020202020202020202020207d202c292c3228203a27657061687327202c65736c6146203a27726564726f5f6e617274726f6627202c2738693c27203a277263736564277b0076000159504d554e93),
  (txt "col.npy", leBytes 144 0x000000020000000000000000000000040a2020202020202020202020202020202020202020202020202020202020202020202020202020202020202020202020202020202020202020202020207d202c292c3228203a27657061687327202c65736c6146203a27726564726f5f6e617274726f6627202c2738693c27203a277263736564277b0076000159504d554e93),
  (txt "format.npy", leBytes 131 0x6f6f630a20202020202020202020202020202020202020202020202020202020202020202020202020202020202020202020202020202020202020202020202020207d202c2928203a27657061687327202c65736c6146203a27726564726f5f6e617274726f6627202c2733537c27203a277263736564277b0076000159504d554e93),
  (txt "shape.npy", leBytes 144 0x000000100000000000000008000000000a2020202020202020202020202020202020202020202020202020202020202020202020202020202020202020202020202020202020202020202020207d202c292c3228203a27657061687327202c65736c6146203a27726564726f5f6e617274726f6627202c2738693c27203a277263736564277b0076000159504d554e93),
  (txt "data.npy", leBytes 144 0x000000000000000100000000000000030a2020202020202020202020202020202020202020202020202020202020202020202020202020202020202020202020202020202020202020202020207d202c292c3228203a27657061687327202c65736c6146203a27726564726f5f6e617274726f6627202c2738693c27203a277263736564277b0076000159504d554e93)]⟩

/-- `sparse/coo.npz` -/
def file_sparse_coo_npz : NpzArchive := ⟨[
  (txt "row.npy", leBytes 148 0x00000002000000020000000100000000000000000a2020202020202020202020202020202020202020202020202020202020202020202020202020202020202020202020202020202020202020202020207d202c292c3528203a27657061687327202c65736c6146203a27726564726f5f6e617274726f6627202c2734693c27203a277263736564277b0076000159504d554e93),
  (txt "col.npy", leBytes 148 0x00000002000000000000000100000002000000000a2020202020202020202020202020202020202020202020202020202020202020202020202020202020202020202020202020202020202020202020207d202c292c3528203a27657061687327202c65736c6146203a27726564726f5f6e617274726f6627202c2734693c27203a277263736564277b0076000159504d554e93),
  (txt "format.npy", leBytes 131 0x6f6f630a20202020202020202020202020202020202020202020202020202020202020202020202020202020202020202020202020202020202020202020202020207d202c2928203a27657061687327202c65736c6146203a27726564726f5f6e617274726f6627202c2733537c27203a277263736564277b0076000159504d554e93),
  (txt "shape.npy", leBytes 144 0x000000000000000600000000000000030a2020202020202020202020202020202020202020202020202020202020202020202020202020202020202020202020202020202020202020202020207d202c292c3228203a27657061687327202c65736c6146203a27726564726f5f6e617274726f6627202c2738693c27203a277263736564277b0076000159504d554e93),
  (txt "data.npy", leBytes 168 0x000000000000000700000000000000060000000000000002000000000000000400000000000000010a2020202020202020202020202020202020202020202020202020202020202020202020202020202020202020202020202020202020202020202020207d202c292c3528203a27657061687327202c65736c6146203a27726564726f5f6e617274726f6627202c2738693c27203a277263736564277b0076000159504d554e93)]⟩

/-- `sparse/csc.npz` -/
def file_sparse_csc_npz : NpzArchive := ⟨[
  (txt "indices.npy", leBytes 148 0x00000002000000000000000100000002000000000a2020202020202020202020202020202020202020202020202020202020202020202020202020202020202020202020202020202020202020202020207d202c292c3528203a27657061687327202c65736c6146203a27726564726f5f6e617274726f6627202c2734693c27203a277263736564277b0076000159504d554e93),
  (txt "indptr.npy", leBytes 156 0x000000050000000500000005000000050000000300000002000000000a2020202020202020202020202020202020202020202020202020202020202020202020202020202020202020202020202020202020202020202020207d202c292c3728203a27657061687327202c65736c6146203a27726564726f5f6e617274726f6627202c2734693c27203a277263736564277b0076000159504d554e93),
  (txt "format.npy", leBytes 131 0x6373630a20202020202020202020202020202020202020202020202020202020202020202020202020202020202020202020202020202020202020202020202020207d202c2928203a27657061687327202c65736c6146203a27726564726f5f6e617274726f6627202c2733537c27203a277263736564277b0076000159504d554e93),
  (txt "shape.npy", leBytes 144 0x000000000000000600000000000000030a2020202020202020202020202020202020202020202020202020202020202020202020202020202020202020202020202020202020202020202020207d202c292c3228203a27657061687327202c65736c6146203a27726564726f5f6e617274726f6627202c2738693c27203a277263736564277b0076000159504d554e93),
  (txt "data.npy", leBytes 168 0x000000000000000700000000000000040000000000000002000000000000000600000000000000010a2020202020202020202020202020202020202020202020202020202020202020202020202020202020202020202020202020202020202020202020207d202c292c3528203a27657061687327202c65736c6146203a27726564726f5f6e617274726f6627202c2738693c27203a277263736564277b0076000159504d554e93)]⟩

/-- `sparse/csr-unsorted.npz` -/
def file_sparse_csr_unsorted_npz : NpzArchive := ⟨[
  (txt "indices.npy", leBytes 148 0x00000000000000020000000100000000000000020a2020202020202020202020202020202020202020202020202020202020202020202020202020202020202020202020202020202020202020202020207d202c292c3528203a27657061687327202c65736c6146203a27726564726f5f6e617274726f6627202c2734693c27203a277263736564277b0076000159504d554e93),
  (txt "indptr.npy", leBytes 144 0x000000050000000300000002000000000a2020202020202020202020202020202020202020202020202020202020202020202020202020202020202020202020202020202020202020202020207d202c292c3428203a27657061687327202c65736c6146203a27726564726f5f6e617274726f6627202c2734693c27203a277263736564277b0076000159504d554e93),
  (txt "format.npy", leBytes 131 0x7273630a20202020202020202020202020202020202020202020202020202020202020202020202020202020202020202020202020202020202020202020202020207d202c2928203a27657061687327202c65736c6146203a27726564726f5f6e617274726f6627202c2733537c27203a277263736564277b0076000159504d554e93),
  (txt "shape.npy", leBytes 144 0x000000000000000300000000000000030a2020202020202020202020202020202020202020202020202020202020202020202020202020202020202020202020202020202020202020202020207d202c292c3228203a27657061687327202c65736c6146203a27726564726f5f6e617274726f6627202c2738693c27203a277263736564277b0076000159504d554e93),
  (txt "data.npy", leBytes 168 0x000000000000000200000000000000020000000000000001000000000000000200000000000000020a2020202020202020202020202020202020202020202020202020202020202020202020202020202020202020202020202020202020202020202020207d202c292c3528203a27657061687327202c65736c6146203a27726564726f5f6e617274726f6627202c2738693c27203a277263736564277b0076000159504d554e93)]⟩

/-- `sparse/csr.npz` -/
def file_sparse_csr_npz : NpzArchive := ⟨[
  (txt "indices.npy", leBytes 148 0x00000002000000000000000100000002000000000a2020202020202020202020202020202020202020202020202020202020202020202020202020202020202020202020202020202020202020202020207d202c292c3528203a27657061687327202c65736c6146203a27726564726f5f6e617274726f6627202c2734693c27203a277263736564277b0076000159504d554e93),
  (txt "indptr.npy", leBytes 144 0x000000050000000300000002000000000a2020202020202020202020202020202020202020202020202020202020202020202020202020202020202020202020202020202020202020202020207d202c292c3428203a27657061687327202c65736c6146203a27726564726f5f6e617274726f6627202c2734693c27203a277263736564277b0076000159504d554e93),
  (txt "format.npy", leBytes 131 0x7273630a20202020202020202020202020202020202020202020202020202020202020202020202020202020202020202020202020202020202020202020202020207d202c2928203a27657061687327202c65736c6146203a27726564726f5f6e617274726f6627202c2733537c27203a277263736564277b0076000159504d554e93),
  (txt "shape.npy", leBytes 144 0x000000000000000600000000000000030a2020202020202020202020202020202020202020202020202020202020202020202020202020202020202020202020202020202020202020202020207d202c292c3228203a27657061687327202c65736c6146203a27726564726f5f6e617274726f6627202c2738693c27203a277263736564277b0076000159504d554e93),
  (txt "data.npy", leBytes 168 0x000000000000000700000000000000060000000000000002000000000000000400000000000000010a2020202020202020202020202020202020202020202020202020202020202020202020202020202020202020202020202020202020202020202020207d202c292c3528203a27657061687327202c65736c6146203a27726564726f5f6e617274726f6627202c2738693c27203a277263736564277b0076000159504d554e93)]⟩

/-- `sparse/dia-long.npz` -/
def file_sparse_dia_long_npz : NpzArchive := ⟨[
  (txt "offsets.npy", leBytes 136 0xfffffff8000000030a2020202020202020202020202020202020202020202020202020202020202020202020202020202020202020202020202020202020202020202020207d202c292c3128203a27657061687327202c65736c6146203a27726564726f5f6e617274726f6627202c2738693c27203a277263736564277b0076000159504d554e93),
  (txt "format.npy", leBytes 131 0x6169640a20202020202020202020202020202020202020202020202020202020202020202020202020202020202020202020202020202020202020202020202020207d202c2928203a27657061687327202c65736c6146203a27726564726f5f6e617274726f6627202c2733537c27203a277263736564277b0076000159504d554e93),
  (txt "shape.npy", leBytes 144 0x000000000000000200000008000000000a2020202020202020202020202020202020202020202020202020202020202020202020202020202020202020202020202020202020202020202020207d202c292c3228203a27657061687327202c65736c6146203a27726564726f5f6e617274726f6627202c2738693c27203a277263736564277b0076000159504d554e93),
  (txt "data.npy", leBytes 144 0x000000000000000100000000000000000a202020202020202020202020202020202020202020202020202020202020202020202020202020202020202020202020202020202020202020207d202c2932202c3128203a27657061687327202c65736c6146203a27726564726f5f6e617274726f6627202c2738693c27203a277263736564277b0076000159504d554e93)]⟩

/-- `sparse/dia.npz` -/
def file_sparse_dia_npz : NpzArchive := ⟨[
  (txt "offsets.npy", leBytes 140 0x0000000200000000fffffffe0a2020202020202020202020202020202020202020202020202020202020202020202020202020202020202020202020202020202020202020202020207d202c292c3328203a27657061687327202c65736c6146203a27726564726f5f6e617274726f6627202c2734693c27203a277263736564277b0076000159504d554e93),
  (txt "format.npy", leBytes 131 0x6169640a20202020202020202020202020202020202020202020202020202020202020202020202020202020202020202020202020202020202020202020202020207d202c2928203a27657061687327202c65736c6146203a27726564726f5f6e617274726f6627202c2733537c27203a277263736564277b0076000159504d554e93),
  (txt "shape.npy", leBytes 144 0x000000000000000600000000000000030a2020202020202020202020202020202020202020202020202020202020202020202020202020202020202020202020202020202020202020202020207d202c292c3228203a27657061687327202c65736c6146203a27726564726f5f6e617274726f6627202c2738693c27203a277263736564277b0076000159504d554e93),
  (txt "data.npy", leBytes 200 0x0000000000000004000000000000000000000000000000000000000000000007000000000000000200000000000000010000000000000000000000000000000000000000000000060a202020202020202020202020202020202020202020202020202020202020202020202020202020202020202020202020202020202020202020207d202c2933202c3328203a27657061687327202c65736c6146203a27726564726f5f6e617274726f6627202c2738693c27203a277263736564277b0076000159504d554e93)]⟩

abbrev L64 := List (BitVec 64)

def i64s (xs : List Nat) : List (BitVec 64) := xs.map (BitVec.ofNat 64)

def i8dt : DType := plain "<i8"

end Npyz.Conformance
