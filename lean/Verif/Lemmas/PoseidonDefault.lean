import Verif.Lemmas.Blake2bEval
import Verif.Props.PyPoseidonContract

/-!
# The default constants of Poseidon

`poseidon_constants` and `poseidon_matrix` hash with BLAKE2b.  Here BLAKE2b is the function of RFC 7693 (`Verif/Spec/Blake2b.lean`), which the
C implementation computes (C58), and the kernel evaluates the chains of digests for the two default seeds.
-/

namespace Ethsnarks
open Rfc7693.Eval (hash1 hash_eq_eval)
open Fips.Eval (force force_eq)

/-- BLAKE2b with a digest of 32 bytes and without a key, on bytes as the models of Poseidon take them. -/
def blake2b256 (m : List (Fin 256)) : List (Fin 256) :=
  (Rfc7693.blake2b 32 [] (m.map fun b => BitVec.ofNat 8 b.val)).map fun b => ⟨b.toNat, b.isLt⟩

theorem blake2b256_length (m : List (Fin 256)) : (blake2b256 m).length = 32 := by
  rw [blake2b256, List.length_map, C58_length]

theorem bytesLE_bits (m : List (Fin 256)) : Rfc7693.Eval.val (m.map fun b => BitVec.ofNat 8 b.val) = bytesLE m := by
  induction m with
  | nil => rfl
  | cons b m ih =>
    rw [List.map_cons, Rfc7693.Eval.val_cons, ih, bytesLE, BitVec.toNat_ofNat, Nat.mod_eq_of_lt b.2]

theorem bytesLE_fin (x : List (BitVec 8)) : bytesLE (x.map fun b => (⟨b.toNat, b.isLt⟩ : Fin 256)) = Rfc7693.Eval.val x := by
  induction x with
  | nil => rfl
  | cons b m ih => rw [List.map_cons, bytesLE, ih, Rfc7693.Eval.val_cons]

theorem blake2b256_eval (m : List (Fin 256)) (h : m.length ≤ 32) : bytesLE (blake2b256 m) = hash1 m.length (bytesLE m) := by
  rw [blake2b256, bytesLE_fin, hash_eq_eval _ (by rwa [List.length_map]), List.length_map, bytesLE_bits]

/-- The chain of digests as numbers. -/
def chainN : ℕ → ℕ → List ℕ
  | 0, _ => []
  | n + 1, x => force (hash1 32 x) fun y => y :: chainN n y

theorem digests_eval : ∀ (n : ℕ) (d : List (Fin 256)), d.length = 32 → (digests blake2b256 n d).map bytesLE = chainN n (bytesLE d)
  | 0, _, _ => rfl
  | n + 1, d, h => by
    rw [digests, List.map_cons, digests_eval n _ (blake2b256_length d), chainN, force_eq, blake2b256_eval d (by omega), h]

theorem digests_seed (n : ℕ) (d : List (Fin 256)) (h : d.length ≤ 32) :
    (digests blake2b256 (n + 1) d).map bytesLE = hash1 d.length (bytesLE d) :: chainN n (hash1 d.length (bytesLE d)) := by
  rw [digests, List.map_cons, digests_eval n _ (blake2b256_length d), blake2b256_eval d h]

/-- The digests that start from `poseidon_constants`, as little-endian numbers. -/
def constantDigests : List ℕ :=
  [0xb1018eb70c8574ecb84ece4e4e5b91445ae2279b36a2c11d81472cfb54a17be5,
   0xd89251fb8e4e73516269dd63407bf2d6bc4d7332966503689580acb5f782490c,
   0x9ca0361ef166f9ffc0c74bcee02336ed937c5ebad6957e3bce1bed5391b7b0f0,
   0xd5c21df60008c35b39b01dc38e5fa5c34561b0ce79c8a2014c49450bebc3416b,
   0x2d03cefd44927bbfa58fb8a8f22a0686c99db6ea9673e5ae2e3f51016b4d7812,
   0x886eabdbcfb4fea39d4e0db5a3f98e7cdfb19f2f0ab313dda1c9302b491a99b5,
   0xf9ff8e5a18b4bf8c25974987a74efc99699e0f3eeff07ad42724c87113a61806,
   0x653967ff2d6e7230619a242d92d7538dc8b454f350b004f0211db4071d61a852,
   0xe4fb52c8fe424e8fb030eaf14b3bd5c578de6c1ae1436549bf15a6cd2c9c4a33,
   0x2da94346d74ec77c4e5f937d2d595070636e2fcdb9349ce0e2c789c9e9d41ae7,
   0xe91d5022c6dd5e0e62053a173491236dab45e55136d2d8bde8a20f422a169f21,
   0x6b8325b3ccc27fab38cbff3975db1fbbd30dbc5054964e155e42242b228f105e,
   0x13d45f17ebd7bd267612d1c7d028c3ef2380ee77838b1809039156e45ea399da,
   0xef0b8bce461459c7997943ba2c5883b222be8ccbc98836b8bed8575442e01ddb,
   0xb586f2c0694535fe4d58c1a4951387165e78b4ea652ccb8e5a39fd339c13db6b,
   0x8d22864d65382abae0f9cad20697022e6d8b866b8d4f61648ece24b85478b670,
   0xe65998145c7661a6ffd07da0e33682afe358345bf1b93bcb5e9e4a8db2c98007,
   0xb3a9c07c5305ecd6b7bb81ab47083a1870452c65aa74ddb449e86e4d81f33769,
   0x2559fff5296c533ad4c7c6e1c88b9c69980b197513e317db5402d492799eeb9f,
   0xf49b89fe2ad2b52a8302ec7740ad7ab33ee9c40c8219f23a9133ac592d7ef159,
   0xda58042d5874668e8e0f3a278dfc8c8b08ccfbf5b4257ed2832affb60cb4112,
   0x5ed42b99cbf95f6ef9d8249ca82ca39c6a4b2230ab4106e182f8cfea81f1beda,
   0x82869e5a4bf797b5ff57fd165358318c35570790a87502bcb7072042f8d27850,
   0xb260a18b1be4fbde115954d38ed86ab447e635c9e42f30560c9b1bd4d05f5a39,
   0x51e86ae5fb53ac71d03e3570aaf7e6f1c43f39e4329c918bfcff01ac9102bc19,
   0x18b6901831fde10bda86893ae8cbd9f9da5af120dc44c89f5152926c28f2ed2f,
   0x2ec53e23654ad18aca5c584b2eac05eb7d4db203b23ca6620ec475a8795d4202,
   0xbdc07fed81b6191ff34eeaf1cfebd71746e5a5ea7450dc59b95cc1e84d28df7a,
   0x623ee7891199514435ad1ff285fb74fd43a7bb0dae62dbbdb36aff96e508972,
   0x532c77a142db5e08f570a26b8bfba586d8a02b66cda6004bf16c69713104c64b,
   0x3db603d1a3273f8048c732b5e83b6d882f9b840d8766dd6847966129d1cbd7e3,
   0xb842371853ed6bec5f20d82534861c6ce5542294a3b8b585aa7888fd3e273c10,
   0x17b1370ccffe479909b0c1f7dc671b344494342940019105b90562cc4228eb5c,
   0xb22c6394d58de736f9957fbaba84f7a96239fe3e7d3882b431685dbcf7059077,
   0x13c45ba44e91db74e719b45a15914640283f1db32e1a4304667bcf67230c615b,
   0xeb60e5342a288bde422478a4b23c8ac3692601a10e0fb4854a7a013445fe48be,
   0x1380cf7791392e856692cd802e0820e89d319fe8b262dffb8abd00cc83d10f27,
   0xbeca8b35500cbdc3480be6c2609cf3e15dd5b9f0946031f6c9f0945b46d4939e,
   0xc1b9a9e81e241a2a39373188410807eaed7f219be931628c98ed9461e56d62a4,
   0x66ef2ac5c401f66cf0793eb9a35cd5c4f2892aa792d999bd54405be39dd26593,
   0x4be5e03afa435b4db5591fa9ae1e5496fcccc1803c889bdb6c4ed9f7e735e1b6,
   0xc7392c67d4f23d3760c2322dec957bba39233e2d0aea850609209414dd87721a,
   0x46b15def9e1177e9c113f30aa0a008a09d01b68af4a9eb4d15ecb0d04f47e323,
   0x96f6dad4af11aef93cd170b131dc5ca907f1554edb860a2183b8f387bbfc493,
   0xfce4a189884becd478447f93222a8c5298c745116e5d68c21ad61a42ab28f451,
   0x2739ce523e8ac7040f41978fcb09a61fc893f489a7ac63b7dc2b666a0450b8b7,
   0x9f0780a42c4946a89b19bb7764440c746a5f9e23ac2be6d29db4beb0dabd0073,
   0x66c9d97ec57a7d1a301961c6e0ca8e98a9e2ae205a278f13d794e8fa8ea80b44,
   0xebd5da282ecc5fad86b04864ef36226a51f3302113ac038938c89a70e5e3b1dc,
   0x4524ee6d9dd8bed8909b36b7e958e4110ad2f4046c8e17e4c1e6609f71a560c5,
   0x142aaa6de3cf63bb4172a80f539bf5ecd9a42802d39bce5d3728e9bcde35a55a,
   0x6cea3644ef4942b5b898426b6c4845162e327a2ba7660cf2dca68f1ea3ab82a,
   0x403740f3624abb97fbbf2ebe073384ef73f97bb5e9aeecffa13ae89e73dd4638,
   0xe0a4c7d33883e239490a37cbbb3154867f20b09ceb9d889c6b4973fbc5286c89,
   0xe0cb59dc44cf9cd2d50ee95d5119e18d101de86d285e71493d09e87a29ee1b6d,
   0xdbc4cc4b0d8463d87d23e2ef2a3b443eebd4f58418f7e648238ca9a07e0d03d8,
   0xa6d70358045fe7abe9367c33a1b2b87c2049058f01bfeaff0efacfb3ee7841c2,
   0xd805669a87d1c80141d6a49d57e57024ecd82c96bff163e1e064294edd8f717c,
   0x8ccc81d5f4e9d46d9d83dd66add38c331caa9144f7eb2a549926c5aa770b7bd7,
   0xdb949afa58c5153c6e360d10ec3c15e8d05a37a0d7be5a43238d584ee107ee53,
   0x48b74baf3211d3028361caccdf5b4d20b59e2b51c70ff77432a6ce6fb6296618,
   0x91cdbc1ca513a7560d7d5925f0d97d390421832521435031a0d5ffc8c4963a66,
   0xec90d1a68373828d7029d6a5e105db6635536c76fd1a92a2dbda0a99f5695e64,
   0xb1106bfc44162bdbecae6303265d62aa489990582d606d49849c940c6d267004,
   0x1783668830df79d79707da6a0e7c023c5f54a112be7ee3f7d49b420213ab7f64]

/-- The digests that start from `poseidon_matrix_0000`, as little-endian numbers. -/
def matrixDigests : List ℕ :=
  [0x1f3eb824e34cb2bfdb360e4256d8c94f8c3edc111f4e017ab1940fd76d5dfa84,
   0x682a0407116ae6d43a24f1c344db762a79d127ccd24522d08313b81ce1778fd,
   0xac8433fa1d306e79c2df904c993e240ce0d42a8a83d7f3f9da9d8f155beef8f2,
   0x95050b9ed955b3e4c3a370e94fc0084f6e920aedb7eb99344cbf96bba05bfc47,
   0x1834f9e52df8281eacdcaed83b9217854924ef97b9d51795df731adaf9ac9e15,
   0xba493e352c5db1aca5af093e82db9728fd2a98164af7867b2123780e51512eba,
   0x6c78789a3a7dd719fbccf77e904c786444faf33e08c3d7864eb0dd8707b83ece,
   0x73e8cd30f69ac2c860fff2b74ee1814a75ca612ce97cbbed842636a5c963b983,
   0x837c2401fa3534a5f404d724e93c140251519863c86cefa9d23ce7665fc68a55,
   0x769a0439f89ec07213fd9e30e241b1a3fb2039ea790d651e9dc1f72e09e346cd,
   0x14162b2005b923f9454d19671ba4b70431b79f8146a514d52750bb71b8f8ad1,
   0x63877c87ecd6ec4a6cc49cbf235750083d6bed3bd635397640a4273484d8c74e]

/-- The matrix. -/
def matrixTable : List (List ℤ) :=
  [[0x2a605eab3c12c29701b9a8944a16ff3d64c199efa7c857c65e4c0560ab3b0ca1,
    0x1f5b500f1c0f88bcca0d51538b1a787ccd014eeb3831cecc5752dbb1a5732e75,
    0x140c27dca8225f48f74d55391032c02a2677a34a51cf8f329b6b1a0076a18631,
    0x2435feebb56e56c96b4d8a90637235e4f769cca19ee5cc0e1c84b4f74490cee3,
    0x1cabef035d32194e6327ccafed62049f16340bd6522d0e0cfc04c1f3eb6cb8a4,
    0x809febd6b71b85af68e97b3a334b8240e138d95bdec10f96757b1972c74c703],
   [0x25a8fb283934520d61862db42ab5fbbf21a13613f7e99cae00232a61959d468f,
    0x63052928cdf6319a5cb946c2becbe0e4ebc9cc6244c9903a123707e595ebcad,
    0x57ccb8d91f4a1fa9e5039cf4f457e364f940cf575259be35c614030535293c6,
    0x249e9f24440c84e77026b8e111f2e6ca6d124556505b4e5bd5215983b445cbec,
    0x17250b02a83957b0d036d216114793fe53ef92d12ce1b91666546ac818e40c74,
    0x75c1923454f6b1f87f00b238dbda2323e5ed5885a07d6681c8148aacbc32df8],
   [0x29f93e7ee3e09f10c2b577ab2056fa0b2694d164866d49122ce17818e2277ec1,
    0x1321691a1c7edf2cdabb0bd4558d82ff697277299f7fec56406566faefd20d24,
    0x22588e3bcf16d2f9583ff188e2455e4d77e570a01366b13c3b0e9d1cd3dea27,
    0x2ae7c8d8341fc04509d31c5c3caf7b182cbadd6e89bd80e2a8dd438740a1400c,
    0x25b1e032d89662f0666956c34f323c344278f370e4ca56409d7acc9098797797,
    0xaf9bf6e54a040be1910bcab732d2a5451e356c9b0e54f196bc962bfa37a5784],
   [0x2a101efc715f13fe15729e91c076536903f8718ffac65a04a1fff47e51ed0d6d,
    0x141194b8fa596f801dcbd27cd0a1fa45aa8d7a1db367e8f495dc906962b60750,
    0xa8bef1519e2b7cc844b0714b71fe093a73334505b6b8e71d731aa1a6a63e9b2,
    0x980e6aa5e105658acd1eddde95a92ffa1556f142a596b401f48395d47dc5a51,
    0xf4461f42060b27d3b34a34d8a0a2d3d6a3d812f3756dcb19e5b04c689a83a5b,
    0xa9346be53c2fa9f7907c52cbf7204de8c1c5dc8b90e2a800c6c1d290ae62c00],
   [0x23d3d70151df81f917113a847d8e61f4929b7edcc6ba0dfe6bd0116713834d61,
    0x125bcfe7de4c761bea5cc5f06d853f39840c8648e0e321d5ab7dc779252d32a6,
    0x2cb31f422481e106c8cf448eaa6b61fe07544eff879951baefb03cb91dbc1e3e,
    0x3c96fb68f083dfafb98c5e09181baf2f94dce618fbc78264bcc6ac102cd6f55,
    0x1cbe64ac49aebf693279d246b2c8e257e99612512afdb30635f5b99ce579f92e,
    0x2375201a368412e3c2046d85fae310971047afe12b973a429b097e44843eef63],
   [0x2185e429a96435c62e21e7091f4262685769e43fa49c9d40f88c41016c588ada,
    0x1d583a5b54b566e83a38a7667d0a979327e66a3bf403f589b5f24c617d6f1aee,
    0x14d180bf4c3bb4c109918b8bed15f0f781bfec0e0d63bed877c5ba8d21d78184,
    0x11c3c8fdf6c7cfa26046d59ad05834c854f7f4324fe53f4abfbc9437b3d13082,
    0x2fd9287af078462bc14f7f1da959e7df7e9a1598b833d3e98cc3552456f8e985,
    0x2ccb8565240997047bef4989cf92c3d2017eb0fa368b135d2d2941c13ddcd324]]

/-- `poseidon_constants`. -/
def constantsSeed : List (Fin 256) := [112, 111, 115, 101, 105, 100, 111, 110, 95, 99, 111, 110, 115, 116, 97, 110, 116, 115]

/-- `poseidon_matrix_0000`. -/
def matrixSeed : List (Fin 256) := [112, 111, 115, 101, 105, 100, 111, 110, 95, 109, 97, 116, 114, 105, 120, 95, 48, 48, 48, 48]

theorem constant_digests : (digests blake2b256 65 constantsSeed).map bytesLE = constantDigests := by
  rw [digests_seed 64 _ (by decide)]
  have : hash1 constantsSeed.length (bytesLE constantsSeed) = 0xb1018eb70c8574ecb84ece4e4e5b91445ae2279b36a2c11d81472cfb54a17be5 := by decide +kernel
  rw [this]
  decide +kernel

theorem matrix_digests : (digests blake2b256 12 matrixSeed).map bytesLE = matrixDigests := by
  rw [digests_seed 11 _ (by decide)]
  have : hash1 matrixSeed.length (bytesLE matrixSeed) = 0x1f3eb824e34cb2bfdb360e4256d8c94f8c3edc111f4e017ab1940fd76d5dfa84 := by decide +kernel
  rw [this]
  decide +kernel

end Ethsnarks
