import Verif.Arith
/-!
# The constants of `Rodas`, src/rodas/constants.rs

They are compiled into the crate but not used by it, since the solver is not written yet (C55).
-/

namespace Cyphus
namespace Rodas
variable {F : Type} [Neg F] [OfScientific F]

/-- constants.rs:4 -/ def C2 : F := 0.386
/-- constants.rs:5 -/ def C3 : F := 0.21
/-- constants.rs:6 -/ def C4 : F := 0.63
/-- constants.rs:7 -/ def BET2P : F := 0.0317
/-- constants.rs:8 -/ def BET3P : F := 0.0635
/-- constants.rs:9 -/ def BET4P : F := 0.3438
/-- constants.rs:10 -/ def D1 : F := 0.2500000000000000
/-- constants.rs:11 -/ def D2 : F := -0.1043000000000000
/-- constants.rs:12 -/ def D3 : F := 0.1035000000000000
/-- constants.rs:13 -/ def D4 : F := -0.3620000000000023e-1
/-- constants.rs:14 -/ def A21 : F := 0.1544000000000000e1
/-- constants.rs:15 -/ def A31 : F := 0.9466785280815826
/-- constants.rs:16 -/ def A32 : F := 0.2557011698983284
/-- constants.rs:17 -/ def A41 : F := 0.3314825187068521e1
/-- constants.rs:18 -/ def A42 : F := 0.2896124015972201e1
/-- constants.rs:19 -/ def A43 : F := 0.9986419139977817
/-- constants.rs:20 -/ def A51 : F := 0.1221224509226641e1
/-- constants.rs:21 -/ def A52 : F := 0.6019134481288629e1
/-- constants.rs:22 -/ def A53 : F := 0.1253708332932087e2
/-- constants.rs:23 -/ def A54 : F := -0.6878860361058950
/-- constants.rs:24 -/ def C21 : F := -0.5668800000000000e1
/-- constants.rs:25 -/ def C31 : F := -0.2430093356833875e1
/-- constants.rs:26 -/ def C32 : F := -0.2063599157091915
/-- constants.rs:27 -/ def C41 : F := -0.1073529058151375
/-- constants.rs:28 -/ def C42 : F := -0.9594562251023355e1
/-- constants.rs:29 -/ def C43 : F := -0.2047028614809616e2
/-- constants.rs:30 -/ def C51 : F := 0.7496443313967647e1
/-- constants.rs:31 -/ def C52 : F := -0.1024680431464352e2
/-- constants.rs:32 -/ def C53 : F := -0.3399990352819905e2
/-- constants.rs:33 -/ def C54 : F := 0.1170890893206160e2
/-- constants.rs:34 -/ def C61 : F := 0.8083246795921522e1
/-- constants.rs:35 -/ def C62 : F := -0.7981132988064893e1
/-- constants.rs:36 -/ def C63 : F := -0.3152159432874371e2
/-- constants.rs:37 -/ def C64 : F := 0.1631930543123136e2
/-- constants.rs:38 -/ def C65 : F := -0.6058818238834054e1
/-- constants.rs:39 -/ def GAMMA : F := 0.2500000000000000
/-- constants.rs:40 -/ def D21 : F := 0.1012623508344586e2
/-- constants.rs:41 -/ def D22 : F := -0.7487995877610167e1
/-- constants.rs:42 -/ def D23 : F := -0.3480091861555747e2
/-- constants.rs:43 -/ def D24 : F := -0.7992771707568823e1
/-- constants.rs:44 -/ def D25 : F := 0.1025137723295662e1
/-- constants.rs:45 -/ def D31 : F := -0.6762803392801253
/-- constants.rs:46 -/ def D32 : F := 0.6087714651680015e1
/-- constants.rs:47 -/ def D33 : F := 0.1643084320892478e2
/-- constants.rs:48 -/ def D34 : F := 0.2476722511418386e2
/-- constants.rs:49 -/ def D35 : F := -0.6594389125716872e1

end Rodas
end Cyphus
