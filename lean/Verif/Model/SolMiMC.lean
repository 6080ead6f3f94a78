import Verif.Model.Evm
import Verif.Spec.Keccak

/-!
# MiMC in the Solidity contracts

Models `/repo/contracts/MiMCpe7_generated.sol`, `MiMCpe5_generated.sol`, `MiMC_permutation.sol` and `MiMC_hash.sol`.  The two
generated contracts are a sequence of rounds that differ only in a literal; the model is the list of these literals, in
order, and the three statements of a round.  `KECCAK256` is the specification `Keccak.hash`.
-/

namespace Ethsnarks.Sol
open Evm

/-- `localQ` (`MiMCpe7_generated.sol:5`, `MiMCpe5_generated.sol:5`, `MiMC_permutation.sol:31,56`, `MiMC_hash.sol:23`). -/
def Q : ℕ := 0x30644e72e131a029b85045b68181585d2833e84879b9709143e1f593f0000001

/-- The literals of `MiMCpe7_generated.sol:8-280`. -/
def table7 : List ℕ :=
  [0x2e2ebbb178296b63d88ec198f0976ad98bc1d4eb0d921ddd2eb86cb7e70a98e5,
   0x21bfc154b5b071d22d06105663553801f858c1f231020b4c291a729d6281d349,
   0x126cfa352b0e2701442b36e0c2fc88287cfd3bfecce842afc0e3e78d8edb4ad8,
   0x309d7067ab65de1a99fe23f458d0bc3f18c59b6642ef48afc679ef17cb6928c,
   0x194c4693409966960be88513cfe32987c125f71398a782e44973fb8af4798bd8,
   0x5a849684bc58cc0d6e9f319b4dae26db171733bf60f31d978e41d09a75a6319,
   0x18bd4dae5134538bd2f90d41bbb1e330b2a8286ba4a09aca3fbbdcf932534be5,
   0x736c60cd39fd1649d4845b4f9a6ec9baca89fb2de0a3d7eeabe43504b5607fa,
   0x25a6971a9d2c1de9f374378d8f61492b1bd3c46584c076a76c43c3cd1a747512,
   0xa3373d15fa6dce221f83226c02d41f8aea5cfc6da4c9f4981ada1bd4b50f56e,
   0x2b70028e2bf4e008e22eddb78d4190d73c289dc6445b3f64e15f8bd0ec02c672,
   0xb24ef461a71eed93dd366342f9ca4eebb749c8a5a6057c801d538c7c0666ba4,
   0x5d1e0ac576d1ec814b621516339ae1a291c7df36b5fd6cf0b4e3c9cd25e3072,
   0x271cfbf88e9744b8596e7e2d6875c8005d0e62014010ac35e95a7ce2390bc50f,
   0x196309f1d170d741ab1ce90c39772017fb7cdec78c37882b98a6b56956c13def,
   0x127c1116c575c03c7f6d83417d8c1b3808f92ee16924a54094bf094721e9e4f5,
   0x1bff78047ee67d38a54fdc540f9a2ba07f63489acd36425f1ae210ac329826f5,
   0x6c7dc7bbae615fcf1896f2b8db7d92c05dc1ea1c8134e9db6fd588672c53e9a,
   0x12df78cba175ef76dbfcc9c785926bb3949a87ec7533e2559a27a64b91cebba5,
   0x2bd4cdc962e3da62cb3c96f7c428a9b0d518bfa7ce26f8fce7a6af769afb6540,
   0x24edd3847febbe44c4cc390246e3379b47fd01a030d0cd0b4fcf7fbd1cabfe58,
   0x1ce065d2c2561bb573e4cf4259d3b0b0e9eacb447751c62b77d0bc5e4e3c7d15,
   0x18053e9f0d45f9eefbda135bfd39329e34837e633565c314fb9030b9db7381bb,
   0x162ffa8742138bbe516168bf86ec78b1ad1e8b535ac455a7cfbb22c13f9c5a9e,
   0x79eea42e16ac6442ca82623fc0e8d9ad3996a47a8013ea9cb73858ca42b7159,
   0xa49af2bbe11b05bd02a69a47b1bad5b2170407ada21142f06e4e109de88a1b6,
   0x12c34eebbaa69cccc36929e8f4a6e40771e153ff77943da55c4fc860537b733a,
   0x8de5ac6b4e359335b6fce58dc0e5e43fd2aefd86bac35abe579b8cace5dbc8,
   0x4a6e988b50d915734bf3296d83057ffe6a550f8987e4597bee7d333cd24a865,
   0x24112633926cfc6028fa2ffd9f090b1e5428a0a87d7118356e48b5d470449217,
   0xd56329982f3df38a3f19fb814c3013f419ba0eb8403b27c0c0e75c6fe1cf468,
   0x1f01ef80763c95f53c434164493d9673aeef290bf1aa1997d677b557b9692e8a,
   0x105c5257f801527e60b0361c00075b5a79d2dc6821d8a1258d906ed453c7e7be,
   0x3db505a0c32cb61ca099389c2180e1c83827fb41d9fed84d88766df44c63079,
   0x1262e738f38db6c79d24d9727294421cd95afa24f4700c1323ab83c3a06ace32,
   0xee68c3e38c194033994c0d4d7bde35bfafa35b22a95f915f82c5a3b0422bd9a,
   0x2ee5427bd20c47f8d2f0aa9e6419f7926abcd5965084292ae54dd780077e6902,
   0x1e542d31d2a381792e0a9241c46229a22fd9382443e423a0e419d0feb58656af,
   0xba39f01462ab6a7cf621952752fcde48677d7f32df47e940eacf4954c5ef632,
   0x29c00b058c17800146bdc06b1e73ff5d0ff53df96f8463818c0572d11fcaf88b,
   0xb6200895b60a6c6794fcf1c2b1b15d03a713c905a8ba1f1315f7501fe1a50b8,
   0x2bc639b1b85d731f62d2c6f391d4498e392cb75edcbd5c4c0fa8b26d32d68a12,
   0x2a89f38e6440ce641127046b67d8e615f14503d72d76bf3c703a01d1463a8445,
   0x1750ede7eeeb4edd7838b67fac6d250a54055eeead10e69b3a6e1f076ca87868,
   0xc2d65084bead2a743115be5329d5458d29802081f6f9dac4165c42651f9be2b,
   0x28303e2d834e16e1fe33c9ab726a3e75dd0dad9bfea1a43267199e1f243993fb,
   0x2b572811ca34ea5110d10772e4ced362ebefd7cd1e1884b769e9435914efc5e5,
   0x17521ca5799fe2ea82c67c0a8d0863b5eec0ef9b703e195dd402b7008b53f6b4,
   0x407e54b96a5b63c609fa3797b223c73d260a365ad58b25891a5660272096bd5,
   0x1a3cd155b03c7d33cc8222c997424bc14069e2edbf4b8aa564c9e5832bdace91,
   0x296255b5e697e517c502ba49b18aaad89514a490a02e7a878b5d559841b93fbd,
   0x174835801a1f1525b4c21853b965c5048af465e9f79de9d16748c67953da79a7,
   0x2d4afed7a708e5972e84d766292f2c841c5d8570961074d59ad3f51e9369a597,
   0x1c0eb06744c9866e271cd29a7f17f72964faba3cd088b95e73dcce9d92c79ba6,
   0x26705e7e4f23a7d786ad1786b353a2f8b82269c7b58ab70d7b93f41685d34d45,
   0x4e674d88b90b1188353106ae25c0447acace9dc6d62cfe7fec2d7993dfd7a22,
   0xdf3335da13ff46f65095f975d157886241aeccff38fd9bba92644f8969d7e09,
   0x2dfff62b9282ec05b1fa44479a6e9debe9ac631813d2b10e44b9e0fe19e4d4ee,
   0x8ece248fe1ce1cd705699b5cd07c990ec27721bab59b657bb138e487ee6694d,
   0x2c1ab81db607ba76dbf71f48752c856bf183044981c3b6d1fd31b179a078f571,
   0x1de6f8886868e351bf4caad293bd86ed29ef63810e15cb809542e01bfbbcb88,
   0x23dd8b576fa286331864d63c77fd82fa61da717533821b9382617ebd54abeb46,
   0x169f2c8e515b2cee8d183991c3712736001a7f92fb34c3e3f532dec373aacbfb,
   0xecf89b898e2deca99ae5108d271f1fa92e5018c1ac899d554dc1dfa35ceb0a0,
   0xdc0d6e76afba377dd693ed4c47a4f9fee7a88d1df5df62fd06f2f87b81de1c8,
   0xd8d08571539c68a37dad2a6638291d323948e57a0189a7be2ec14d89308bb6d,
   0x17d170e737533e922c934f79bad3c28f85ef14b21c7354000298cee876977a44,
   0x9ed630d4088d7acaa34064515c1cb368ed405c4ded26df38652d290b26f6aff,
   0x2b5381943dd4c43bd059a4747b72fc116f099c46004dc811ddb440f7ee69701e,
   0x1da34e987e965c368ec0252e97db8bfb78668db369cdf6c70f7e02b5bd52b3b,
   0x1a18c896f124cd4821fbe08ac680b78362c15344619cef072874f43799b89f23,
   0x168dbaf0eae2cfe96f6b340bfd4922c1c41317bfff69613b81d9722e34059f20,
   0x1dfd587726ec442565eb47fc0234740634b6562d1b60192947140b8670aa4014,
   0x147a904bcd17a3f66ebd75b2c1279507001e602842a047929fd119d31edf3924,
   0x621164e8b17a476172ee2aabd9a1a67ecc05f926bec5bbaceb7524616e1166,
   0x280fcce91f920b6487ee3e6a838abbc1f7eb44e4853b22d067a56f5e908499b9,
   0x2d49d03ab6b741495e4d7cbe87ea6cf0f06aea86f528d13d57f6a05e4c868d0b,
   0x2a59b6e410852d96661479179081af38f478b7603eb3e4f231f99633d826cde9,
   0x1a7783fa9ff7b36d38aeb75e65cfc88260b70d4600b51ab5745e5fe1dc35d9b1,
   0x286d1e7e039fa286d1bd8fe69e175ecad61693cc1f55044847191bae2ff344b2,
   0xfa108dbe8e14e8c53093f9aaf1f989dabb3dc026ffecb049d3d6b4b2c9b8077,
   0xe4b25635fa58150829c3e832c4361bfa7edfdf40b0514c00dd3a7338131f193,
   0x23b0ea71b8bbd3cb62b741e525f5c8b35cbfed820aaf1234d03a4655cdf71039,
   0x2aced572dbfd2664569030fcf391019702f79cbfbe380714894fbfc785dad03f,
   0x3c36b340d12daf2422febd15a4521f351459057c2affd6816c67fa38b3cc34d,
   0x17d64c030f29369c09ffd529c7532b84228e69ef6dd9d9dab603ba86cb9254e7,
   0x95050333e4136e4c73b4101ab008bf625a73c51afd5e77f99c606ca7ace63d7,
   0x10ca0fd2a95bc198763d375f566182463e0c92ea122df6485f1c4e5a9769b32c,
   0x29f63c935efe224e235d5b49b88578a97b25c739a342d4a0d908b98ef757db61,
   0x1e1289b8eff2d431b178bc957cc0c41a1d7237057b9256fd090eb3c6366b9ef5,
   0x1ed8ee02730ece601f15be81e7d27250c4a4d4c04e7a2f3f4e79b931fd9ffac9]

/-- The literals of `MiMCpe5_generated.sol:8-337`. -/
def table5 : List ℕ :=
  [0x2e2ebbb178296b63d88ec198f0976ad98bc1d4eb0d921ddd2eb86cb7e70a98e5,
   0x21bfc154b5b071d22d06105663553801f858c1f231020b4c291a729d6281d349,
   0x126cfa352b0e2701442b36e0c2fc88287cfd3bfecce842afc0e3e78d8edb4ad8,
   0x309d7067ab65de1a99fe23f458d0bc3f18c59b6642ef48afc679ef17cb6928c,
   0x194c4693409966960be88513cfe32987c125f71398a782e44973fb8af4798bd8,
   0x5a849684bc58cc0d6e9f319b4dae26db171733bf60f31d978e41d09a75a6319,
   0x18bd4dae5134538bd2f90d41bbb1e330b2a8286ba4a09aca3fbbdcf932534be5,
   0x736c60cd39fd1649d4845b4f9a6ec9baca89fb2de0a3d7eeabe43504b5607fa,
   0x25a6971a9d2c1de9f374378d8f61492b1bd3c46584c076a76c43c3cd1a747512,
   0xa3373d15fa6dce221f83226c02d41f8aea5cfc6da4c9f4981ada1bd4b50f56e,
   0x2b70028e2bf4e008e22eddb78d4190d73c289dc6445b3f64e15f8bd0ec02c672,
   0xb24ef461a71eed93dd366342f9ca4eebb749c8a5a6057c801d538c7c0666ba4,
   0x5d1e0ac576d1ec814b621516339ae1a291c7df36b5fd6cf0b4e3c9cd25e3072,
   0x271cfbf88e9744b8596e7e2d6875c8005d0e62014010ac35e95a7ce2390bc50f,
   0x196309f1d170d741ab1ce90c39772017fb7cdec78c37882b98a6b56956c13def,
   0x127c1116c575c03c7f6d83417d8c1b3808f92ee16924a54094bf094721e9e4f5,
   0x1bff78047ee67d38a54fdc540f9a2ba07f63489acd36425f1ae210ac329826f5,
   0x6c7dc7bbae615fcf1896f2b8db7d92c05dc1ea1c8134e9db6fd588672c53e9a,
   0x12df78cba175ef76dbfcc9c785926bb3949a87ec7533e2559a27a64b91cebba5,
   0x2bd4cdc962e3da62cb3c96f7c428a9b0d518bfa7ce26f8fce7a6af769afb6540,
   0x24edd3847febbe44c4cc390246e3379b47fd01a030d0cd0b4fcf7fbd1cabfe58,
   0x1ce065d2c2561bb573e4cf4259d3b0b0e9eacb447751c62b77d0bc5e4e3c7d15,
   0x18053e9f0d45f9eefbda135bfd39329e34837e633565c314fb9030b9db7381bb,
   0x162ffa8742138bbe516168bf86ec78b1ad1e8b535ac455a7cfbb22c13f9c5a9e,
   0x79eea42e16ac6442ca82623fc0e8d9ad3996a47a8013ea9cb73858ca42b7159,
   0xa49af2bbe11b05bd02a69a47b1bad5b2170407ada21142f06e4e109de88a1b6,
   0x12c34eebbaa69cccc36929e8f4a6e40771e153ff77943da55c4fc860537b733a,
   0x8de5ac6b4e359335b6fce58dc0e5e43fd2aefd86bac35abe579b8cace5dbc8,
   0x4a6e988b50d915734bf3296d83057ffe6a550f8987e4597bee7d333cd24a865,
   0x24112633926cfc6028fa2ffd9f090b1e5428a0a87d7118356e48b5d470449217,
   0xd56329982f3df38a3f19fb814c3013f419ba0eb8403b27c0c0e75c6fe1cf468,
   0x1f01ef80763c95f53c434164493d9673aeef290bf1aa1997d677b557b9692e8a,
   0x105c5257f801527e60b0361c00075b5a79d2dc6821d8a1258d906ed453c7e7be,
   0x3db505a0c32cb61ca099389c2180e1c83827fb41d9fed84d88766df44c63079,
   0x1262e738f38db6c79d24d9727294421cd95afa24f4700c1323ab83c3a06ace32,
   0xee68c3e38c194033994c0d4d7bde35bfafa35b22a95f915f82c5a3b0422bd9a,
   0x2ee5427bd20c47f8d2f0aa9e6419f7926abcd5965084292ae54dd780077e6902,
   0x1e542d31d2a381792e0a9241c46229a22fd9382443e423a0e419d0feb58656af,
   0xba39f01462ab6a7cf621952752fcde48677d7f32df47e940eacf4954c5ef632,
   0x29c00b058c17800146bdc06b1e73ff5d0ff53df96f8463818c0572d11fcaf88b,
   0xb6200895b60a6c6794fcf1c2b1b15d03a713c905a8ba1f1315f7501fe1a50b8,
   0x2bc639b1b85d731f62d2c6f391d4498e392cb75edcbd5c4c0fa8b26d32d68a12,
   0x2a89f38e6440ce641127046b67d8e615f14503d72d76bf3c703a01d1463a8445,
   0x1750ede7eeeb4edd7838b67fac6d250a54055eeead10e69b3a6e1f076ca87868,
   0xc2d65084bead2a743115be5329d5458d29802081f6f9dac4165c42651f9be2b,
   0x28303e2d834e16e1fe33c9ab726a3e75dd0dad9bfea1a43267199e1f243993fb,
   0x2b572811ca34ea5110d10772e4ced362ebefd7cd1e1884b769e9435914efc5e5,
   0x17521ca5799fe2ea82c67c0a8d0863b5eec0ef9b703e195dd402b7008b53f6b4,
   0x407e54b96a5b63c609fa3797b223c73d260a365ad58b25891a5660272096bd5,
   0x1a3cd155b03c7d33cc8222c997424bc14069e2edbf4b8aa564c9e5832bdace91,
   0x296255b5e697e517c502ba49b18aaad89514a490a02e7a878b5d559841b93fbd,
   0x174835801a1f1525b4c21853b965c5048af465e9f79de9d16748c67953da79a7,
   0x2d4afed7a708e5972e84d766292f2c841c5d8570961074d59ad3f51e9369a597,
   0x1c0eb06744c9866e271cd29a7f17f72964faba3cd088b95e73dcce9d92c79ba6,
   0x26705e7e4f23a7d786ad1786b353a2f8b82269c7b58ab70d7b93f41685d34d45,
   0x4e674d88b90b1188353106ae25c0447acace9dc6d62cfe7fec2d7993dfd7a22,
   0xdf3335da13ff46f65095f975d157886241aeccff38fd9bba92644f8969d7e09,
   0x2dfff62b9282ec05b1fa44479a6e9debe9ac631813d2b10e44b9e0fe19e4d4ee,
   0x8ece248fe1ce1cd705699b5cd07c990ec27721bab59b657bb138e487ee6694d,
   0x2c1ab81db607ba76dbf71f48752c856bf183044981c3b6d1fd31b179a078f571,
   0x1de6f8886868e351bf4caad293bd86ed29ef63810e15cb809542e01bfbbcb88,
   0x23dd8b576fa286331864d63c77fd82fa61da717533821b9382617ebd54abeb46,
   0x169f2c8e515b2cee8d183991c3712736001a7f92fb34c3e3f532dec373aacbfb,
   0xecf89b898e2deca99ae5108d271f1fa92e5018c1ac899d554dc1dfa35ceb0a0,
   0xdc0d6e76afba377dd693ed4c47a4f9fee7a88d1df5df62fd06f2f87b81de1c8,
   0xd8d08571539c68a37dad2a6638291d323948e57a0189a7be2ec14d89308bb6d,
   0x17d170e737533e922c934f79bad3c28f85ef14b21c7354000298cee876977a44,
   0x9ed630d4088d7acaa34064515c1cb368ed405c4ded26df38652d290b26f6aff,
   0x2b5381943dd4c43bd059a4747b72fc116f099c46004dc811ddb440f7ee69701e,
   0x1da34e987e965c368ec0252e97db8bfb78668db369cdf6c70f7e02b5bd52b3b,
   0x1a18c896f124cd4821fbe08ac680b78362c15344619cef072874f43799b89f23,
   0x168dbaf0eae2cfe96f6b340bfd4922c1c41317bfff69613b81d9722e34059f20,
   0x1dfd587726ec442565eb47fc0234740634b6562d1b60192947140b8670aa4014,
   0x147a904bcd17a3f66ebd75b2c1279507001e602842a047929fd119d31edf3924,
   0x621164e8b17a476172ee2aabd9a1a67ecc05f926bec5bbaceb7524616e1166,
   0x280fcce91f920b6487ee3e6a838abbc1f7eb44e4853b22d067a56f5e908499b9,
   0x2d49d03ab6b741495e4d7cbe87ea6cf0f06aea86f528d13d57f6a05e4c868d0b,
   0x2a59b6e410852d96661479179081af38f478b7603eb3e4f231f99633d826cde9,
   0x1a7783fa9ff7b36d38aeb75e65cfc88260b70d4600b51ab5745e5fe1dc35d9b1,
   0x286d1e7e039fa286d1bd8fe69e175ecad61693cc1f55044847191bae2ff344b2,
   0xfa108dbe8e14e8c53093f9aaf1f989dabb3dc026ffecb049d3d6b4b2c9b8077,
   0xe4b25635fa58150829c3e832c4361bfa7edfdf40b0514c00dd3a7338131f193,
   0x23b0ea71b8bbd3cb62b741e525f5c8b35cbfed820aaf1234d03a4655cdf71039,
   0x2aced572dbfd2664569030fcf391019702f79cbfbe380714894fbfc785dad03f,
   0x3c36b340d12daf2422febd15a4521f351459057c2affd6816c67fa38b3cc34d,
   0x17d64c030f29369c09ffd529c7532b84228e69ef6dd9d9dab603ba86cb9254e7,
   0x95050333e4136e4c73b4101ab008bf625a73c51afd5e77f99c606ca7ace63d7,
   0x10ca0fd2a95bc198763d375f566182463e0c92ea122df6485f1c4e5a9769b32c,
   0x29f63c935efe224e235d5b49b88578a97b25c739a342d4a0d908b98ef757db61,
   0x1e1289b8eff2d431b178bc957cc0c41a1d7237057b9256fd090eb3c6366b9ef5,
   0x1ed8ee02730ece601f15be81e7d27250c4a4d4c04e7a2f3f4e79b931fd9ffac9,
   0xeda91475c3ab115f152715897c3576a9dbb2ef1ed50d61dbf4c0598ff6a58eb,
   0x8500abb0196f24be86ec189b2168d781debbdf0de6507750f0271fe83fd3025,
   0x27a1724b77b9b0698dd5d338a11efb1d8dd4cfccde71e7d0ee0f9e93f2757271,
   0x95112e6392bfa527944333eb2c7ce1d392d234465d3f4b2c5aed73107967638,
   0x119f669d6bf57d682e5c19e4845d9069893f6775b3abb284e2d938bec0bc0c79,
   0x2ba1af2a7f3e8bd4a404431c4d8065cb55bb80de023bf6da15ae8820374eb252,
   0x775d41bd68867655e782da88079958b15bc54dbde846522f6e9459218d71249,
   0x1bb23adef59288d57fb6f686400b9d3c24de7f1431f560653ae169ec22d344d,
   0x11f93058586938f85d19667feec338315279fbd407b0a7650a3c46ecad1006e8,
   0x6ddbd55afd849d57ad56bf59c1052c0c961d797bcb50118fc91dd92668d2ab9,
   0x1740b116f81c27d2d07be1689f377357f6e5a7e8d6b214603908c0f80dccaae0,
   0x116ded648815b2b8ca4398285c97d58df0deba28b2c463fc8917e584b6667685,
   0x2f7aaa01d21a0d607e714a293b02bed5430f5026916849f128d56feca76759e4,
   0xe7f7ce2988b53e2cd977fbfeca7c7cd3d7b0a723faef652fdac3d3d19ef251e,
   0x23996db39d86423fb8749cdc559401d72767eef1ef7c7f32a89f414377ba524b,
   0x1d308ca56d5efd538233125a7250df8ac501e9bd1baacf312e13ea6d08535ef8,
   0x192a71c92b13952c0f3d4dbd927a4cc840d126ee5986d74b3447dac50463371a,
   0x243b248bbd88895e15f25e0d5a2ef9551cb7fbbd9cb527cf9a3f7d12e0cce08a,
   0x19b41f1b7661eeca3bab284d41daf35dc5841d239f7c1403d915ee3c312cbf00]

/-- The statements of one round with exponent 7 (`MiMCpe7_generated.sol:8-10` and so on): the sum is not reduced. -/
def round7 (k x c : ℕ) : ℕ :=
  let t := add (add x c) k
  let a := mulmod t t Q
  mulmod (mulmod a (mulmod a a Q) Q) t Q

/-- The statements of one round with exponent 5 (`MiMCpe5_generated.sol:8-10` and so on). -/
def round5 (k x c : ℕ) : ℕ :=
  let t := add (add x c) k
  let a := mulmod t t Q
  mulmod (mulmod a a Q) t Q

/-- `MiMCpe7_generated.MiMCpe7` (`MiMCpe7_generated.sol:3-283`). -/
def MiMCpe7 (x k : ℕ) : ℕ := addmod (table7.foldl (round7 k) x) k Q

/-- `MiMCpe5_generated.MiMCpe5` (`MiMCpe5_generated.sol:3-340`). -/
def MiMCpe5 (x k : ℕ) : ℕ := addmod (table5.foldl (round5 k) x) k Q

/-- `keccak256(c, 32)` of the word at `c` (`MiMC_permutation.sol:36`). -/
def keccakWord (c : ℕ) : ℕ := bytesWord (Keccak.hash (wordBytes c))

/-- The word stored before the loop (`MiMC_permutation.sol:29,54`). -/
def seedWord : ℕ := 0xb6e489e6b37224a50bebfddbe7d89fa8fdcaa84304a70bd13f79b5d9f7951e9e

/-- The loop of `MiMC_permutation.MiMCpe7` (`MiMC_permutation.sol:35-40`), with `i` iterations left. -/
def permLoop7 (k : ℕ) : ℕ → ℕ → ℕ → ℕ
  | 0, _, x => x
  | i + 1, c, x =>
    let c := keccakWord c
    let t := addmod (addmod x c Q) k Q
    let a := mulmod t t Q
    permLoop7 k i c (mulmod (mulmod a (mulmod a a Q) Q) t Q)

/-- `MiMC_permutation.MiMCpe7` (`MiMC_permutation.sol:22-45`). -/
def permMiMCpe7 (x k : ℕ) : ℕ := addmod (permLoop7 k 91 seedWord x) k Q

/-- The loop of `MiMC_permutation.MiMCpe5` (`MiMC_permutation.sol:60-65`). -/
def permLoop5 (k : ℕ) : ℕ → ℕ → ℕ → ℕ
  | 0, _, x => x
  | i + 1, c, x =>
    let c := keccakWord c
    let t := addmod (addmod x c Q) k Q
    let a := mulmod t t Q
    permLoop5 k i c (mulmod (mulmod a a Q) t Q)

/-- `MiMC_permutation.MiMCpe5` (`MiMC_permutation.sol:47-70`). -/
def permMiMCpe5 (x k : ℕ) : ℕ := addmod (permLoop5 k 110 seedWord x) k Q

/-- `MiMC_hash.MiMCpe7_mp` (`MiMC_hash.sol:19-31`): the additions are those of `uint256`. -/
def MiMCpe7_mp (xs : List ℕ) (k : ℕ) : ℕ := xs.foldl (fun r x => mod (add (add r x) (MiMCpe7 x r)) Q) k

/-- `MiMC_hash.MiMCpe7_md` (`MiMC_hash.sol:33-42`). -/
def MiMCpe7_md (xs : List ℕ) (k : ℕ) : ℕ := xs.foldl (fun k x => MiMCpe7 x k) k

end Ethsnarks.Sol

namespace Ethsnarks.Py
open Evm

/-- `H(seed)` for a byte string and `H(n)` for an integer, as the big-endian value of the digest
(`/repo/ethsnarks/mimc/permutation.py:27-30`); the integer is written with 32 bytes (`to_bytes`, line 24; it raises for
integers of more than 32 bytes, which a digest is not). -/
def H (data : List ℕ) : ℕ := bytesWord (Keccak.hash data)

/-- The loop of `mimc_constants` (`permutation.py:49-51`). -/
def constantsLoop : ℕ → ℕ → List ℕ
  | 0, _ => []
  | n + 1, seed =>
    let seed := H (wordBytes seed)
    seed :: constantsLoop n seed

/-- `mimc_constants(seed, p, R)` for a byte string (`permutation.py:35-51`). -/
def mimcConstants (seed : List ℕ) (R : ℕ) : List ℕ := constantsLoop R (H seed)

/-- `mimc(x, k, seed, p, e, R)` (`permutation.py:54-90`) without the assertion `R > 2`; Python integers are unbounded, the
arguments are non-negative. -/
def mimc (x k : ℕ) (seed : List ℕ) (p e R : ℕ) : ℕ :=
  ((mimcConstants seed R).foldl (fun x c => ((x + k + c) % p) ^ e % p) x + k) % p

/-- `mimc_hash(x, k, ..)` (`permutation.py:93-124`). -/
def mimcHash (xs : List ℕ) (k : ℕ) (seed : List ℕ) (p e R : ℕ) : ℕ :=
  xs.foldl (fun k x => (k + x + mimc x k seed p e R) % p) k

/-- `mimc_hash_md(x, k, ..)` (`permutation.py:127-146`). -/
def mimcHashMd (xs : List ℕ) (k : ℕ) (seed : List ℕ) (p e R : ℕ) : ℕ :=
  xs.foldl (fun k x => mimc x k seed p e R) k

end Ethsnarks.Py
